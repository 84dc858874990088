{"id": "C01", "title": "Upper-bound search is exact and stays inside its range", "statement": "picsar_upper_bound(first,last,val) on an ascending range always terminates, only dereferences positions inside [first,last), and returns the position of the first element strictly greater than val (last if there is none).", "quantifier": "every ascending sequence of every length (including empty and with repeated values) and every searched value", "why_tests_cant": "The search halves an arbitrary length; off-by-one errors only show for particular (length, position) pairs and there are infinitely many of them.", "anchors": ["src/multi_physics/QED/src/utilities.hpp: picsar_upper_bound"]}
{"id": "C02", "title": "Linear spacing produces a usable coordinate grid", "statement": "generate_lin_spaced_vec(min,max,size) with min<max and size>=2 returns exactly size coordinates, the first equal to min, the last exactly max, strictly increasing and with a constant step (max-min)/(size-1); any other request returns an empty vector.", "quantifier": "every real min and max and every size", "why_tests_cant": "Unbounded sizes and a continuum of end points.", "anchors": ["src/multi_physics/QED/src/utilities.hpp: generate_lin_spaced_vec"]}
{"id": "C03", "title": "Logarithmic spacing produces a usable coordinate grid", "statement": "generate_log_spaced_vec(min,max,size) with 0<min<max and size>=2 returns exactly size coordinates, first equal to min, last exactly max, strictly increasing, with a constant ratio; requests with min>=max, a negative end point or size<2 return an empty vector. A user expects every accepted request to give a finite increasing grid.", "quantifier": "every real min and max (including zero) and every size", "why_tests_cant": "Unbounded sizes and a continuum of end points; the failing end point min=0 is a single value tests rarely use.", "anchors": ["src/multi_physics/QED/src/utilities.hpp: generate_log_spaced_vec"]}
{"id": "C04", "title": "Log-lin-log spacing produces a usable coordinate grid", "statement": "generate_log_lin_log_spaced_vec(min,max,size), for 0<min<=max/10, returns exactly size finite coordinates starting at min and ending at max, in non-decreasing order.", "quantifier": "every positive min and max with min<=max/10 and every size", "why_tests_cant": "The three segments are sized by integer division, so the behaviour depends on size modulo 3 for unboundedly many sizes.", "anchors": ["src/multi_physics/QED/src/utilities.hpp: generate_log_lin_log_spaced_vec"]}
{"id": "C05", "title": "Poisson sampling inverts the Poisson distribution", "statement": "poisson_distrib(lambda,u) terminates for every u in [0,1) and returns the least k with u <= sum_{i<=k} exp(-lambda) lambda^i / i!; in particular it is monotone in u and returns 0 whenever u <= exp(-lambda).", "quantifier": "every rate lambda>=0 and every unit-interval draw u<1, in exact arithmetic", "why_tests_cant": "The number of loop iterations is unbounded as u approaches 1.", "anchors": ["src/multi_physics/QED/src/utilities.hpp: poisson_distrib"]}
{"id": "C06", "title": "Equispaced 1-D table lookup is in bounds and linear between nodes", "statement": "For a 1-D lookup table on an equispaced grid, the equispaced linear interpolation at any point of [front,back) reads only existing entries, returns the node value at a node, lies between the two neighbouring values elsewhere and equals their convex combination by distance.", "quantifier": "every table size >=2, every table content and every abscissa in the half-open range", "why_tests_cant": "A continuum of abscissae and unbounded table sizes.", "anchors": ["src/multi_physics/QED/src/lookup_tables.hpp: lookup_1d::interp_linear_equispaced"]}
{"id": "C07", "title": "Equispaced 1-D table lookup covers the closed table range", "statement": "A user relies on the equispaced interpolation being defined on the whole closed range [front,back] of the table, including the last grid point, without touching memory outside the table.", "quantifier": "every equispaced table and every abscissa in the closed range", "why_tests_cant": "Reading one element past an array usually goes unnoticed in a test run.", "anchors": ["src/multi_physics/QED/src/lookup_tables.hpp: lookup_1d::interp_linear_equispaced", "src/multi_physics/QED/src/lookup_tables.hpp: lookup_2d::interp_linear_equispaced"]}
{"id": "C08", "title": "General 1-D table lookup is in bounds and linear between nodes", "statement": "For a 1-D table with strictly increasing coordinates, the search-based linear interpolation at any point of [front,back) reads only existing entries, agrees with node values at nodes and is the convex combination of the two bracketing nodes elsewhere; on an equispaced grid it returns the same value as the equispaced routine.", "quantifier": "every strictly increasing coordinate vector, every content, every abscissa in the half-open range", "why_tests_cant": "A continuum of abscissae and grids of unbounded size.", "anchors": ["src/multi_physics/QED/src/lookup_tables.hpp: lookup_1d::interp_linear"]}
{"id": "C09", "title": "2-D table lookup is in bounds and bilinear", "statement": "For a 2-D table, the bilinear interpolation at any point of [front1,back1)x[front2,back2) reads only existing entries, uses four non-negative weights that sum to one, reproduces node values at nodes and reproduces every function affine in each variable exactly.", "quantifier": "every table shape, content and point of the half-open rectangle", "why_tests_cant": "Four index computations over unbounded shapes and a continuum of points.", "anchors": ["src/multi_physics/QED/src/lookup_tables.hpp: lookup_2d::interp_linear", "src/multi_physics/QED/src/lookup_tables.hpp: lookup_2d::interp_linear_equispaced"]}
{"id": "C10", "title": "First-coordinate 2-D lookup clamps and never leaves the table", "statement": "The first-coordinate interpolation of a 2-D equispaced table is defined for every real abscissa: at or below the first coordinate it returns the first row entry, at or above the last coordinate the last row entry, in between the convex combination of the two neighbouring rows; it never reads outside the table for any column index inside it.", "quantifier": "every table shape with at least two rows, every content, every real abscissa, every column index", "why_tests_cant": "A continuum of abscissae including out-of-range ones and unbounded shapes.", "anchors": ["src/multi_physics/QED/src/lookup_tables.hpp: lookup_2d::interp_linear_first_equispaced", "src/multi_physics/QED/src/lookup_tables.hpp: lookup_2d::interp_linear_first"]}
{"id": "C11", "title": "2-D table storage order is a bijection", "statement": "For an n1 x n2 table every pair of coordinate indices addresses its own storage cell inside the data block, every cell is addressed by exactly one pair, and the value returned for a pair of coordinate indices is the value stored for that pair.", "quantifier": "every n1, n2 and every pair of indices", "why_tests_cant": "Unbounded shapes.", "anchors": ["src/multi_physics/QED/src/lookup_tables.hpp: lookup_2d::row_major", "src/multi_physics/QED/src/lookup_tables.hpp: lookup_2d::data_at_coords"]}
{"id": "C12", "title": "Lookup tables survive a write/read round trip", "statement": "Writing a 1-D or 2-D lookup table to a binary stream and reading it back yields the same coordinates and data and leaves the stream positioned exactly after the table, so the tables that an engine writes one after another are all recovered.", "quantifier": "every table of every size whose element count fits the size type, and every data following in the stream", "why_tests_cant": "Unbounded table sizes and arbitrary contents.", "anchors": ["src/multi_physics/QED/src/lookup_tables.hpp: write_on_stream_bin/read_from_stream_bin", "src/multi_physics/QED/src/picsar_vector.hpp: picsar_vector", "src/multi_physics/QED/src/breit_wheeler_engine.hpp: write_dN_dt_table/read_dN_dt_table"]}
{"id": "C13", "title": "A truncated table file is detected", "statement": "If the file holding a lookup table was cut short (for example by a crash while it was being written), reading it does not produce a table that reports itself as initialised.", "quantifier": "every table and every truncation (crash) point of its file", "why_tests_cant": "The crash point ranges over every byte offset of files of every size.", "anchors": ["src/multi_physics/QED/src/lookup_tables.hpp: read_from_stream_bin"]}
{"id": "C14", "title": "Vector memory is never freed twice or used after being freed", "statement": "For every sequence of constructions, wrappings of raw memory, copies, moves, copy- and move-assignments, resizes and destructions of picsar_vector objects in which raw memory outlives its wrappers, no block is freed twice and no block is accessed after it was freed.", "quantifier": "every finite history of operations over any number of vectors", "why_tests_cant": "The number of interleaved operation histories is unbounded.", "anchors": ["src/multi_physics/QED/src/picsar_vector.hpp: picsar_vector"]}
{"id": "C15", "title": "Vector copies are independent values", "statement": "After copy construction or copy assignment from another vector the destination holds the source's size and elements, and later writes to either one are not visible through the other; copy-assigning a vector to itself leaves it unchanged.", "quantifier": "every vector content, every later sequence of writes", "why_tests_cant": "Aliasing shows only for particular later histories.", "anchors": ["src/multi_physics/QED/src/picsar_vector.hpp: copy constructor, operator="]}
{"id": "C16", "title": "Vector resize keeps the common prefix", "statement": "resize(n) of a vector that manages its memory leaves a vector of size n whose first min(old,n) elements are unchanged; resizing a vector that wraps external memory is refused with an exception and changes nothing.", "quantifier": "every content, every new size", "why_tests_cant": "Unbounded sizes.", "anchors": ["src/multi_physics/QED/src/picsar_vector.hpp: resize"]}
{"id": "C17", "title": "Vectors do not leak memory", "statement": "When all vectors of a program have been destroyed, every block they allocated has been freed, whatever sequence of operations was applied to them.", "quantifier": "every finite history of operations", "why_tests_cant": "A leak is invisible to functional tests.", "anchors": ["src/multi_physics/QED/src/picsar_vector.hpp: operator= (copy), operator= (move), destructor"]}
{"id": "C18", "title": "front() and back() return the end elements", "statement": "On a non-empty vector front() is the first and back() the last element, on const and non-const vectors alike.", "quantifier": "every non-empty content, const and non-const access", "why_tests_cant": "For one-element vectors, the shape most tests use, both accessors agree by accident.", "anchors": ["src/multi_physics/QED/src/picsar_vector.hpp: front, back"]}
{"id": "C19", "title": "A moved-from vector is empty but reusable", "statement": "After moving from a vector the destination owns the elements and the source is empty, can be destroyed safely, and can be given a new size.", "quantifier": "every content and every later history of the two vectors", "why_tests_cant": "Depends on later histories of both objects.", "anchors": ["src/multi_physics/QED/src/picsar_vector.hpp: move constructor, move assignment, resize"]}
{"id": "C20", "title": "Optical depth draws are exponential", "statement": "The optical depth drawn from a unit-interval number u in [0,1) is non-negative, increases with u, and satisfies: depth <= t exactly when u <= 1-exp(-t).", "quantifier": "every u in [0,1) and every t>=0", "why_tests_cant": "A continuum of draws.", "anchors": ["src/multi_physics/QED/src/breit_wheeler_engine.hpp: internal_get_optical_depth", "src/multi_physics/QED/src/quantum_sync_engine.hpp: internal_get_optical_depth"]}
{"id": "C21", "title": "Optical depth evolution fires exactly when the depth is used up", "statement": "Evolving the optical depth over a step dt with rate r>0: an event is reported exactly when depth < r*dt; then the reported elapsed time lies in [0,dt), equals depth/r for the depth at the start, and the remaining depth is depth - r*dt; without an event the reported time is zero and the depth stays non-negative.", "quantifier": "every starting depth >=0, every dt>=0, every rate>0", "why_tests_cant": "A continuum of states; boundary cases where the depth exactly reaches zero.", "anchors": ["src/multi_physics/QED/src/breit_wheeler_engine.hpp: internal_evolve_opt_depth_and_determine_event", "src/multi_physics/QED/src/quantum_sync_engine.hpp: internal_evolve_opt_depth_and_determine_event"]}
{"id": "C22", "title": "Subdividing a time step does not change whether an emission happens", "statement": "For a constant rate, evolving over any sequence of sub-steps reports its first event during the sub-step that contains the time depth/r, and the absolute time of the event (sub-step start plus reported elapsed time) is the same for every subdivision.", "quantifier": "every finite subdivision of every time interval", "why_tests_cant": "Unbounded numbers of sub-steps.", "anchors": ["src/multi_physics/QED/src/breit_wheeler_engine.hpp: internal_evolve_opt_depth_and_determine_event", "src/multi_physics/QED/src/quantum_sync_engine.hpp: internal_evolve_opt_depth_and_determine_event"]}
{"id": "C23", "title": "Below threshold nothing happens", "statement": "For a photon with energy below twice the electron rest energy or quantum parameter at or below the configured minimum, and for a lepton with quantum parameter at or below the minimum, the evolution reports success, no event, zero elapsed time and leaves the optical depth untouched, whatever the state of the table.", "quantifier": "every momentum, field, dt, table state and optical depth", "why_tests_cant": "A continuum of kinematic states.", "anchors": ["src/multi_physics/QED/src/breit_wheeler_engine.hpp: internal_evolve_opt_depth_and_determine_event", "src/multi_physics/QED/src/quantum_sync_engine.hpp: internal_evolve_opt_depth_and_determine_event"]}
{"id": "C24", "title": "Breit-Wheeler pair generation conserves weight, direction, quantum parameter and energy", "statement": "Generating pairs with sampling factor s returns s electrons and s positrons, each with weight w/s; all their momenta are along the photon momentum; the quantum parameters of each pair add up to the photon's; and the energies of electron and positron of each pair add up exactly to the photon energy, for photons above the pair-creation threshold.", "quantifier": "every photon momentum above threshold, every field, weight, sampling factor and sequence of random draws", "why_tests_cant": "A continuum of kinematic states and arbitrarily many pairs.", "anchors": ["src/multi_physics/QED/src/breit_wheeler_engine.hpp: internal_generate_breit_wheeler_pairs"]}
{"id": "C25", "title": "The inversion of the pair-energy table stays inside the table", "statement": "While inverting the cumulative pair distribution the binary search terminates and the two bracketing columns it uses are adjacent, inside the table and really bracket the drawn probability, for every draw in [0,1).", "quantifier": "every table shape, every non-decreasing cumulative row starting at 0 and ending at 1/2, every draw in [0,1)", "why_tests_cant": "Off-by-one errors show only for particular table contents and draws.", "anchors": ["src/multi_physics/QED/src/breit_wheeler_engine.hpp: internal_generate_breit_wheeler_pairs"]}
{"id": "C26", "title": "Pair production rate is well defined and non-negative", "statement": "The interpolated Breit-Wheeler rate is zero for zero energy or zero quantum parameter, is strictly positive otherwise, and never reads outside the table for any quantum parameter.", "quantifier": "every quantum parameter and energy, every table content", "why_tests_cant": "A continuum of arguments including both out-of-range sides.", "anchors": ["src/multi_physics/QED/src/breit_wheeler_engine.hpp: internal_interp_dN_dt"]}
{"id": "C27", "title": "Photon emission conserves momentum", "statement": "Emitting photons with sampling factor s returns s photons of weight w/s whose momenta are along the lepton momentum, and lepton momentum before = lepton momentum after + sum over photons of (photon weight / lepton weight) * photon momentum.", "quantifier": "every lepton momentum, field, sampling factor, weight and sequence of draws", "why_tests_cant": "A continuum of kinematic states and arbitrarily many photons.", "anchors": ["src/multi_physics/QED/src/quantum_sync_engine.hpp: internal_generate_photons_and_update_momentum"]}
{"id": "C28", "title": "Photon emission rate lookup stays inside the table", "statement": "The interpolated quantum-synchrotron rate never reads outside its table, for every quantum parameter.", "quantifier": "every quantum parameter and table", "why_tests_cant": "The failing input is a saturated quantum parameter; reading one element too far usually goes unnoticed.", "anchors": ["src/multi_physics/QED/src/quantum_sync_engine.hpp: internal_interp_dN_dt"]}
{"id": "C29", "title": "Schwinger pair rate has the physical zeros and sign", "statement": "The Schwinger pair-production rate is never negative, is zero whenever the electric field does not exceed the magnetic field in an orthogonal configuration (in particular for a vanishing electric field and for plane waves), and depends on the fields only through their two Lorentz invariants.", "quantifier": "every pair of real field vectors", "why_tests_cant": "A continuum of field configurations.", "anchors": ["src/multi_physics/QED/src/schwinger_pair_engine.hpp: internal_compute_schwinger_pair_production_rate"]}
{"id": "C30", "title": "Single-pair and multi-pair Schwinger sampling decide consistently", "statement": "Single-pair sampling produces a pair exactly when the draw is below rate*volume*dt, and gives it weight 1/volume; multi-pair sampling produces the number of pairs given by inverting the Poisson distribution with mean rate*volume*dt. With a vanishing rate neither produces a pair, for every draw.", "quantifier": "every rate, cell size, time step and draw", "why_tests_cant": "A continuum of inputs.", "anchors": ["src/multi_physics/QED/src/schwinger_pair_engine.hpp: internal_generate_pairs_single, internal_generate_pairs_multiple"]}
{"id": "C31", "title": "Quantum parameters are non-negative and scale as physics requires", "statement": "The photon and lepton quantum parameters are non-negative, vanish for zero momentum (photon) and zero fields, scale linearly with the fields, scale linearly with the photon momentum, and the photon parameter vanishes for a photon moving along a wave with B = (n x E)/c.", "quantifier": "every momentum and every pair of field vectors", "why_tests_cant": "A continuum of inputs.", "anchors": ["src/multi_physics/QED/src/chi_functions.hpp: chi_photon, chi_lepton"]}
{"id": "C32", "title": "Table generation does not depend on thread scheduling", "statement": "The cumulative tables computed by the OpenMP-parallel row loops are the same for every assignment of rows to threads and every interleaving of the threads' iterations, and equal to the sequential result.", "quantifier": "every number of rows and columns, every schedule", "why_tests_cant": "The number of interleavings is exponential and any particular test run exercises one.", "anchors": ["src/multi_physics/QED/src/breit_wheeler_engine.hpp: compute_cumulative_pair_table", "src/multi_physics/QED/src/quantum_sync_engine.hpp: compute_cumulative_phot_em_table"]}
{"id": "C33", "title": "An engine rebuilt from exported innards behaves like the original", "statement": "An engine constructed from export_innards() of another engine reports the same table state and gives the same results as the original for every later call while the original is alive and unchanged.", "quantifier": "every engine state and every later call", "why_tests_cant": "Depends on the state of the exporting engine (tables generated or not) and on later histories.", "anchors": ["src/multi_physics/QED/src/breit_wheeler_engine.hpp: export_innards and constructor from innards", "src/multi_physics/QED/src/quantum_sync_engine.hpp: export_innards and constructor from innards", "src/multi_physics/test_program/src/main.cpp"]}
{"id": "C34", "title": "Species arrays stay consistent", "statement": "In the test-bed species, after every sequence of particle additions, removals, overwrites, pushes, field updates and process applications all per-particle arrays have the same length, equal to the number of particles reported.", "quantifier": "every finite sequence of operations", "why_tests_cant": "Unbounded histories.", "anchors": ["src/multi_physics/test_program/src/species.cpp: species"]}
{"id": "C35", "title": "Destructive processes remove exactly the selected particles", "statement": "Applying a destruction process removes exactly the particles the predicate selected and keeps every other particle, each with all its own attributes, exactly once.", "quantifier": "every population and every selection", "why_tests_cant": "Unbounded population and 2^n selections.", "anchors": ["src/multi_physics/test_program/src/species.cpp: do_process_with_destruction, remove_particles_given_sorted_indices"]}
{"id": "C36", "title": "Processes are registered and applied as named", "statement": "A process can be registered once per identifier (a second registration is refused and changes nothing); applying all simple processes applies each registered one exactly once in identifier order; asking for an unknown identifier changes nothing that later calls can see.", "quantifier": "every history of registrations and applications", "why_tests_cant": "Unbounded histories.", "anchors": ["src/multi_physics/test_program/src/species.cpp: add_simple_process, do_simple_process, do_all_simple_processes"]}
{"id": "C37", "title": "Swapping two particles exchanges them", "statement": "swap_particles(i,j) exchanges all attributes of particles i and j and leaves every other particle untouched.", "quantifier": "every population and pair of indices", "why_tests_cant": "Depends on index values in relation to the number of components.", "anchors": ["src/multi_physics/test_program/src/species.cpp: swap_particles"]}
{"id": "C38", "title": "Boris push preserves momentum magnitude in a magnetic field", "statement": "Advancing particles with the Boris pusher in a purely magnetic field leaves |u| and the Lorentz factor of every particle unchanged, for every time step and field strength, over any number of steps; the stored inverse Lorentz factor always matches the stored momentum.", "quantifier": "every number of particles, every momentum, field, charge, mass and time step, every number of steps", "why_tests_cant": "A continuum of states and unbounded step counts.", "anchors": ["src/particle_pushers/boris_pusher/boris_3d.F90: pxr_boris_push_u_3d"]}
{"id": "C39", "title": "Boris push is time reversible", "statement": "Pushing momenta forward by dt and then by -dt in the same fields restores the original momenta exactly (in exact arithmetic).", "quantifier": "every momentum, field, charge, mass and time step", "why_tests_cant": "A continuum of states.", "anchors": ["src/particle_pushers/boris_pusher/boris_3d.F90: pxr_boris_push_u_3d"]}
{"id": "C40", "title": "Blocked and split Boris push equal the plain one", "statement": "The cache-blocked variant gives the same momenta and Lorentz factors as the plain Boris push for every block length and particle count (each particle processed exactly once), and the sequence half electric push, Lorentz factor, magnetic push, half electric push gives the plain Boris push.", "quantifier": "every particle count and block length, every state", "why_tests_cant": "Remainder-block handling depends on count modulo block length for unboundedly many values.", "anchors": ["src/particle_pushers/boris_pusher/boris_3d.F90: pxr_boris_push_u_3d_block, pxr_epush_v, pxr_bpush_v, pxr_set_gamma"]}
{"id": "C41", "title": "Particles never move faster than light", "statement": "After a momentum push, the position push moves each particle by less than c*|dt| and along its momentum, in 2D and 3D.", "quantifier": "every momentum and time step", "why_tests_cant": "A continuum of states.", "anchors": ["src/particle_pushers/boris_pusher/boris_3d.F90: pxr_pushxyz, pxr_set_gamma", "src/particle_pushers/boris_pusher/boris_2d.F90: pxr_pushxz"]}
{"id": "C42", "title": "Vay push solves the velocity-averaged Lorentz force and preserves force-free motion", "statement": "The Vay pusher leaves momenta unchanged when E + v x B = 0, and in general its result satisfies u_new - u_old = (q dt/m)(E + (v_old+v_new)/2 x B) with v_new from the returned inverse Lorentz factor, which matches the returned momentum.", "quantifier": "every momentum, field, charge, mass, time step", "why_tests_cant": "A continuum of states.", "anchors": ["src/particle_pushers/vay_pusher/vay_3d.F90: pxr_ebcancelpush3d"]}
{"id": "C43", "title": "Radiation-reaction pusher leaves a particle at rest alone in zero field", "statement": "A particle with zero momentum in zero fields is left at rest (finite momentum) by every pusher variant.", "quantifier": "every pusher variant, charge, mass, time step", "why_tests_cant": "Division by zero produces NaN that propagates silently; only this corner state triggers it.", "anchors": ["src/particle_pushers/boris_pusher/boris_3d.F90: pxr_boris_push_rr_B08_u_3d"]}
{"id": "C44", "title": "Magnetic divergence is preserved by the field solver", "statement": "The Yee magnetic-field update leaves the discrete divergence of B unchanged at every interior cell, for arbitrary electric fields and any number of updates, in 3D and 2D; so does the CKC update for its own divergence operator.", "quantifier": "every E and B field, every time step size, any number of steps", "why_tests_cant": "A continuum of field states and unbounded numbers of steps.", "anchors": ["src/field_solvers/Maxwell/yee_solver/yee.F90: pxrpush_em3d_bvec, pxrpush_em2d_bvec", "src/field_solvers/Maxwell/karkkainen_solver/karkkainen.F90: pxrpush_em3d_bvec_ckc"]}
{"id": "C45", "title": "Gauss's law residual is preserved by the field solver", "statement": "If the deposited current satisfies the discrete continuity equation, the Yee electric-field update leaves div E - rho/eps0 unchanged at every interior node.", "quantifier": "every field, current and charge density satisfying continuity", "why_tests_cant": "A continuum of states and unbounded steps.", "anchors": ["src/field_solvers/Maxwell/yee_solver/yee.F90: pxrpush_em3d_evec"]}
{"id": "C46", "title": "Esirkepov current deposition satisfies discrete charge continuity", "statement": "The current deposited for any set of particles by the Esirkepov routines satisfies, at every grid node, (rho_new - rho_old)/dt + div J = 0 where rho is what the charge deposition of the same order deposits for the particle positions after and before the step, provided no particle moves more than one cell per step.", "quantifier": "every set of particles of every size, orders 1, 2 and 3, every position and velocity below one cell per step", "why_tests_cant": "A continuum of positions with different cell-crossing cases in each direction and unbounded particle numbers.", "anchors": ["src/particle_deposition/current_deposition/esirkepov/esirkepov_3d.F90: depose_jxjyjz_esirkepov_1_1_1, _2_2_2, _3_3_3, pxr_depose_jxjyjz_esirkepov_n", "src/particle_deposition/charge_deposition/charge_deposition_3d.F90"]}
{"id": "C47", "title": "Gauss's law holds through whole simulation steps", "statement": "Starting from fields satisfying the discrete Gauss law for the deposited charge, it still holds after every number of steps of current deposition and field update.", "quantifier": "every initial state, every particle motion below one cell per step, any number of steps", "why_tests_cant": "Unbounded numbers of steps and particles.", "anchors": ["src/submain.F90: step", "src/particle_deposition/current_deposition/esirkepov/esirkepov_3d.F90", "src/field_solvers/Maxwell/yee_solver/yee.F90"]}
{"id": "C48", "title": "Charge deposition deposits exactly the particles' charge", "statement": "The charge density added to the grid by the deposition of order 1, 2 or 3 sums (times cell volume) to the total charge of the particles, is non-negative for positive charges, only touches nodes within the shape support, and does not depend on the order of the particles.", "quantifier": "every set of particles in any order", "why_tests_cant": "A continuum of positions and unbounded particle numbers and orders.", "anchors": ["src/particle_deposition/charge_deposition/charge_deposition_3d.F90: depose_rho_scalar_1_1_1, depose_rho_scalar_2_2_2, depose_rho_scalar_3_3_3"]}
{"id": "C49", "title": "Guard cells agree with the owning subdomain after a field exchange", "statement": "After the guard-cell exchange every guard value of every rank equals the value held by the rank that owns that grid node, including edges and corners, for every decomposition in which each subdomain is wider than the guard region, with blocking and non-blocking communication alike.", "quantifier": "every number of ranks and every subdomain sizes per direction, every field content", "why_tests_cant": "All decompositions, including one or two ranks per direction where both neighbours coincide.", "anchors": ["src/boundary_conditions/field_boundaries.F90: exchange_mpi_3d_grid_array_with_guards, exchange_mpi_3d_grid_array_with_guards_nonblocking"]}
{"id": "C50", "title": "Guard-cell currents are added exactly once", "statement": "After the summation exchange every grid node (and its copies in guard cells) holds the sum of all contributions deposited by all ranks at that node, each counted exactly once, with blocking and non-blocking communication alike.", "quantifier": "every number of ranks and subdomain sizes wider than the guard region, every content", "why_tests_cant": "All decompositions including coinciding neighbours; the shared boundary node is stored on two ranks.", "anchors": ["src/boundary_conditions/field_boundaries.F90: summation_bcs, summation_bcs_nonblocking"]}
{"id": "C51", "title": "Guard exchange transfers the right memory for every array", "statement": "Each exchange sends and receives exactly the guard slabs of the array passed to it, whatever arrays were exchanged before.", "quantifier": "every history of exchanges of arrays with various extents and guard widths", "why_tests_cant": "Depends on the history of earlier calls through cached communication datatypes.", "anchors": ["src/boundary_conditions/field_boundaries.F90: exchange_mpi_3d_grid_array_with_guards", "src/modules/modules.F90: is_dtype_init", "src/parallelization/mpi/mpi_derived_types.F90: create_3d_array_derived_type"]}
{"id": "C52", "title": "The domain decomposition partitions the cells", "statement": "The per-rank cell ranges are contiguous, disjoint, in order and together cover exactly the global cells; sizes differ by at most one.", "quantifier": "every number of cells and of processes per direction (cells >= processes)", "why_tests_cant": "Unbounded numbers of cells and processes with all remainders.", "anchors": ["src/parallelization/mpi/mpi_routines.F90: mpi_initialise"]}
{"id": "C53", "title": "Ranks, coordinates and neighbours are consistent", "statement": "The mapping from rank to processor coordinates is a bijection, each rank's neighbour in every one of the 27 directions is a valid rank with the periodically shifted coordinates, and neighbour relations are symmetric (my neighbour in direction d has me as neighbour in direction -d).", "quantifier": "every processor grid, every rank, every direction", "why_tests_cant": "Unbounded processor grids; wrap-around corner cases.", "anchors": ["src/parallelization/mpi/mpi_routines.F90: setup_communicator"]}
{"id": "C54", "title": "The random topology assigns every rank exactly one subdomain", "statement": "With the random topology option, every subdomain is assigned to exactly one rank, whatever random numbers are drawn.", "quantifier": "every processor grid and every sequence of random draws", "why_tests_cant": "Unboundedly many random sequences.", "anchors": ["src/parallelization/mpi/mpi_routines.F90: setup_communicator"]}
{"id": "C55", "title": "Particle boundary conditions do what they say", "statement": "A particle leaving the domain is removed at an absorbing boundary, returns inside with reversed normal momentum at a reflecting boundary, returns inside at rest at a re-injecting boundary, and re-enters at the opposite side at a periodic boundary, in blocking, non-blocking and combined communication modes alike.", "quantifier": "every particle leaving by less than the subdomain size, every combination of boundary types, every communication mode", "why_tests_cant": "All combinations of boundary types, faces, edges and corners with a continuum of positions.", "anchors": ["src/boundary_conditions/particle_boundaries.F90: particle_bcs_mpi_blocking, particle_bcs_mpi_non_blocking, particle_bcs_tiles_and_mpi_3d"]}
{"id": "C56", "title": "Absorbing boundaries absorb at the upper faces with default settings", "statement": "With absorbing particle boundaries and default offsets, particles crossing the lower and the upper faces of the domain are removed alike.", "quantifier": "every domain and decomposition with default offsets", "why_tests_cant": "Whether any rank recognises the boundary depends on the decomposition arithmetic.", "anchors": ["src/parallelization/mpi/mpi_routines.F90: mpi_initialise", "src/boundary_conditions/particle_boundaries.F90: particle_bcs_mpi_blocking"]}
{"id": "C57", "title": "Particle exchange between ranks delivers every particle exactly once", "statement": "Every particle that a rank hands to a neighbour arrives at that neighbour exactly once with all its attributes, for all 26 directions, also when several directions lead to the same rank or back to the sender.", "quantifier": "every processor grid (including 1 and 2 ranks per direction), every number of particles per direction", "why_tests_cant": "All process counts and message matchings; unbounded particle numbers.", "anchors": ["src/boundary_conditions/particle_boundaries.F90: particle_bcs_mpi_blocking, particle_bcs_mpi_non_blocking"]}
{"id": "C58", "title": "Tiles partition the subdomain", "statement": "The tiles set up for a species are contiguous, disjoint and cover exactly the subdomain's cells, and a particle of the subdomain is assigned to a tile index inside the tile array, namely the tile whose bounds contain it.", "quantifier": "every grid size and number of tiles per direction, every particle position in the subdomain", "why_tests_cant": "Unbounded grid and tile counts with all remainders and a continuum of positions.", "anchors": ["src/parallelization/tiling/tiling.F90: set_tile_split_for_species, add_particle_to_species"]}
{"id": "C59", "title": "Tile storage keeps every particle through growth and shrinkage", "statement": "For every sequence of particle additions to and removals from a tile, the tile holds exactly the added and not removed particles, each with all attributes; its count never exceeds its capacity and no access leaves the arrays, whatever reallocations happen on the way.", "quantifier": "every finite sequence of additions and removals", "why_tests_cant": "Unbounded histories with growth and shrink thresholds.", "anchors": ["src/parallelization/tiling/tiling.F90: add_particle_at_tile, rm_particle_at_tile, resize_particle_arrays"]}
{"id": "C60", "title": "Masked removal keeps exactly the marked particles", "statement": "Removing particles with a mask keeps exactly the particles whose mask entry is true, each once.", "quantifier": "every tile population and every mask", "why_tests_cant": "2^n masks for unbounded n.", "anchors": ["src/parallelization/tiling/tiling.F90: rm_particles_from_species_with_mask"]}
{"id": "C61", "title": "Adding a group of particles fits them all", "statement": "Adding a group of particles to a tile stores all of them inside the (possibly enlarged) tile arrays.", "quantifier": "every current population, capacity and group size", "why_tests_cant": "Depends on group size relative to capacity.", "anchors": ["src/parallelization/tiling/tiling.F90: add_group_of_particles_at_tile"]}
{"id": "C62", "title": "Moving particles between tiles loses nothing and files every particle correctly", "statement": "After the tile exchange every particle that is inside the subdomain is stored in the tile that contains it, particles outside stay where they are, and the collection of particles is unchanged.", "quantifier": "every distribution of particles over tiles", "why_tests_cant": "Unbounded populations and arbitrary displacements.", "anchors": ["src/boundary_conditions/particle_boundaries.F90: particle_bcs_tiles"]}
{"id": "C63", "title": "Threaded tile exchange is free of conflicts", "statement": "In the OpenMP tile exchange no two tiles processed concurrently read or write the same tile as long as particles move at most to adjacent tiles, so every schedule gives the same collection of particles per tile as the sequential exchange.", "quantifier": "every tile grid, every schedule of same-colour tiles", "why_tests_cant": "Races depend on the schedule.", "anchors": ["src/boundary_conditions/particle_boundaries.F90: particle_bcs_tiles_openmp"]}
{"id": "C64", "title": "Threaded exchange buffers are large enough", "statement": "In the combined tile/MPI exchange the send buffers are at least as large as the number of particles to be sent in each direction, for every thread schedule.", "quantifier": "every schedule of the threads counting particles to send", "why_tests_cant": "A lost update needs a particular interleaving.", "anchors": ["src/boundary_conditions/particle_boundaries.F90: particle_bcs_tiles_and_mpi_3d"]}
{"id": "C65", "title": "Particle sorting is a stable permutation into cell order", "statement": "Sorting particles by cell permutes whole particle records, orders them by cell index, keeps the relative order within a cell and never indexes outside the bin arrays for particles inside the sorting box.", "quantifier": "every set of particles inside the box, in every initial order", "why_tests_cant": "n! initial orders for unbounded n.", "anchors": ["src/housekeeping/sorting.F90: pxr_particle_bin_sorting"]}
{"id": "C66", "title": "Load balancing splits the cells among all processes", "statement": "The load-balancing split gives contiguous, in-order, disjoint cell ranges that cover all cells and leave no process without a valid range.", "quantifier": "every non-negative load profile and number of processes", "why_tests_cant": "A continuum of load profiles.", "anchors": ["src/housekeeping/load_balancing.F90: balance_in_dir"]}
{"id": "C67", "title": "Owner searches are exact", "statement": "The process-interval search returns the process whose interval contains the given cell, or -1 if there is none, and the rank search returns the position of a present key or -1, for all sorted inputs.", "quantifier": "every sorted list of disjoint intervals / keys of every length and every key", "why_tests_cant": "Binary-search boundary errors depend on length and position.", "anchors": ["src/housekeeping/load_balancing.F90: get_proc_interval, binary_search"]}
{"id": "C68", "title": "Field remapping moves every cell to its new owner", "statement": "When fields are remapped from an old to a new decomposition, every cell of every new subdomain receives the value the old owner held for the same global cell; the send and receive lists of every pair of ranks match.", "quantifier": "every pair of decompositions of every grid", "why_tests_cant": "All pairs of decompositions.", "anchors": ["src/housekeeping/load_balancing.F90: get_3Dintersection, remap_em_3Dfields"]}
{"id": "C69", "title": "Processor indices convert to distinct ranks", "statement": "Converting processor grid indices to a rank gives distinct valid ranks for distinct indices.", "quantifier": "every processor grid", "why_tests_cant": "Depends on the relative sizes of the processor grid's directions.", "anchors": ["src/housekeeping/load_balancing.F90: pxr_convertindtoproc"]}
{"id": "C70", "title": "2x2 matrix product helper multiplies matrices", "statement": "The helper that multiplies two 2x2 complex matrices returns their matrix product.", "quantifier": "every pair of matrices", "why_tests_cant": "A continuum of inputs.", "anchors": ["src/parallelization/tiling/tiling.F90: product_matrix_2c2"]}
{"id": "C71", "title": "Moving the simulation window keeps the geometry consistent", "statement": "Shifting the simulation boundaries by any displacement, any number of times, shifts domain, local, grid and tile bounds together, so tiles still partition the subdomain and particles shifted along stay in their tiles.", "quantifier": "every displacement sequence", "why_tests_cant": "Unbounded sequences.", "anchors": ["src/boundary_conditions/field_boundaries.F90: pxr_move_sim_boundaries"]}
{"id": "C72", "title": "Absorbing layers never amplify fields", "statement": "The damping factors of the absorbing layers lie in (0,1], equal one outside the layers and in directions without absorption, so a damping step never increases any field component's magnitude.", "quantifier": "every layer thickness, grid, time step and field", "why_tests_cant": "A continuum of parameters.", "anchors": ["src/submain.F90: init_pml_arrays", "src/field_solvers/Maxwell/maxwell_solver_manager.F90: field_damping_bcs"]}
{"id": "C73", "title": "Energy diagnostics are non-negative and additive over ranks", "statement": "The kinetic energy of a species and the electromagnetic energy are non-negative, vanish exactly for particles at rest / zero fields, and the totals over ranks equal the values for the whole domain.", "quantifier": "every set of particles, every field, every decomposition", "why_tests_cant": "A continuum of states and all decompositions.", "anchors": ["src/particle_pushers/kin_energy.F90: compute_kin_energy_vector", "src/field_solvers/Maxwell/maxwell_solver_manager.F90: compute_em_energy"]}
{"id": "C74", "title": "Field gathering interpolates and is consistent with deposition", "statement": "Fields gathered at a particle are averages of the surrounding grid values with non-negative weights summing to one, so a uniform field is gathered exactly everywhere and no new extrema appear.", "quantifier": "every particle position and field content, orders 1, 2 and 3", "why_tests_cant": "A continuum of positions and field contents.", "anchors": ["src/field_gathering/energy_conserving/scalar (gete3d_energy_conserving_scalar_1_1_1, getb3d_energy_conserving_scalar_1_1_1 and orders 2, 3)"]}
{"id": "C75", "title": "Photon emission never reverses the lepton", "statement": "If every tabulated photon fraction is at most 1, the lepton momentum after emitting photons is a fraction between 0 and 1 of the momentum before, in the same direction, for every sampling factor.", "quantifier": "every lepton momentum, field, sampling factor, weight, table and sequence of draws", "why_tests_cant": "The bound depends on the interplay of the table interpolation, the draws and the kinetic factor gamma-1 versus |p|/mc for every momentum.", "anchors": ["src/multi_physics/QED/src/quantum_sync_engine.hpp: internal_generate_photons_and_update_momentum", "src/multi_physics/QED/src/quantum_sync_engine.hpp: compute_cumulative_phot_em_table"]}
{"id": "C76", "title": "Results do not depend on the reference length in normalised units", "statement": "In normalised units, describing the same physical situation with reference length k*lambda instead of lambda (fields multiplied by k, times and lengths divided by k) leaves the quantum parameters unchanged, multiplies the rates per unit time by k and the Schwinger rate per unit time and volume by k^4.", "quantifier": "every momentum, field, table, lambda and k>0", "why_tests_cant": "A scaling law over all fields and all reference lengths.", "anchors": ["src/multi_physics/QED/src/chi_functions.hpp: chi_photon, chi_lepton", "src/multi_physics/QED/src/breit_wheeler_engine.hpp: internal_interp_dN_dt", "src/multi_physics/QED/src/quantum_sync_engine.hpp: internal_interp_dN_dt", "src/multi_physics/QED/src/schwinger_pair_engine.hpp: internal_compute_schwinger_pair_production_rate"]}
{"id": "C77", "title": "Test-bed momentum push obeys the discrete Lorentz force law", "statement": "One call of the built-in lepton momentum push changes each momentum by 2*beta*(E + average momentum x B/gamma_old) with beta = q dt/(2 m); in purely magnetic fields the magnitude of every momentum stays the same over any number of steps of field update, momentum push and position push.", "quantifier": "every population, field function, charge, mass, time step and number of steps", "why_tests_cant": "A continuum of states and unbounded histories.", "anchors": ["src/multi_physics/test_program/src/leptons.cpp: do_boris_pusher", "src/multi_physics/test_program/src/species.cpp: calc_fields"]}
{"id": "C78", "title": "Test-bed particles respect the speed of light", "statement": "The position push moves every lepton along its momentum by less than |dt| and every photon with nonzero momentum along its momentum by exactly |dt| (units with c=1).", "quantifier": "every momentum, position and time step", "why_tests_cant": "A continuum of states.", "anchors": ["src/multi_physics/test_program/src/leptons.cpp: push_positions", "src/multi_physics/test_program/src/photons.cpp: push_positions"]}
{"id": "C79", "title": "Field update and pushes act on each particle by itself", "statement": "calc_fields gives every particle the field evaluated at its own position and changes nothing else; push_positions changes only positions and push_momenta only momenta, each from the same particle's data, for every particle exactly once.", "quantifier": "every population and field function", "why_tests_cant": "Unbounded populations, arbitrary field functions.", "anchors": ["src/multi_physics/test_program/src/species.cpp: calc_fields", "src/multi_physics/test_program/src/leptons.cpp: push_positions, push_momenta"]}
{"id": "C80", "title": "Split push equals the full push", "statement": "Advancing momenta by the first and then the second half of a split push, without touching fields in between, gives the momenta and Lorentz factors of the unsplit push with the same time step.", "quantifier": "every momentum, field, charge, mass and time step; Boris and Vay pushers", "why_tests_cant": "A continuum of states.", "anchors": ["src/particle_pushers/particle_pusher_manager_3d.F90: pxrpush_particles_part1, pxrpush_particles_part2", "src/particle_pushers/vay_pusher/vay_3d.F90: pxr_ebcancelpush3d"]}
{"id": "C81", "title": "Radiation reaction is a friction", "statement": "The classical radiation-reaction correction of the B08 pusher is antiparallel to the mid-step momentum (or zero): it never does positive work on the particle.", "quantifier": "every momentum, fields, charge, positive mass and time step", "why_tests_cant": "A continuum of states and a sign that depends on the charge to the fourth power.", "anchors": ["src/particle_pushers/boris_pusher/boris_3d.F90: pxr_boris_push_rr_B08_u_3d"]}
{"id": "C82", "title": "Divergence cleaning does not disturb the magnetic push", "statement": "The divergence-cleaning correction of E (adding the discrete gradient of F) leaves every magnetic push that follows unchanged: B after cleaning and a push is bit-for-bit the B without cleaning, wherever the neighbourhood was cleaned.", "quantifier": "every field state, cleaning strength, time step, grid and thread schedule; Yee and Cole-Karkkainen-Cowan solvers", "why_tests_cant": "A continuum of field states and every grid size and schedule.", "anchors": ["src/field_solvers/Maxwell/yee_solver/yee.F90: pxrpush_em3d_evec_f", "src/field_solvers/Maxwell/karkkainen_solver/karkkainen.F90: pxrpush_em3d_evec_f_ckc, pxrpush_em3d_bvec_ckc"]}
{"id": "C83", "title": "2D arbitrary-order magnetic push", "statement": "The 2D Yee push of arbitrary order only uses assigned variables, stays inside the field arrays, and keeps the discrete divergence of B.", "quantifier": "every order, grid, guard width, field state and thread schedule, with and without OpenMP", "why_tests_cant": "An uninitialised private variable often happens to be zero; every order and schedule must be covered.", "anchors": ["src/field_solvers/Maxwell/yee_solver/yee.F90: pxrpush_em2d_bvec_norder"]}
{"id": "C86", "title": "Start-up check of the domain decomposition", "statement": "A run that passes the start-up check has in every direction at least as many cells per process as guard cells, so that the guard region of a process lies inside its direct neighbour.", "quantifier": "every number of cells, processes and guard cells in every direction", "why_tests_cant": "The check works on an average; only particular remainders of the division expose it.", "anchors": ["src/parallelization/mpi/mpi_routines.F90: setup_communicator, mpi_initialise"]}
{"id": "C91", "title": "2-D field gathering interpolates", "statement": "In 2-D (x, z) runs the fields gathered at a particle are averages of the surrounding grid values with non-negative weights summing to one, so that a uniform field is gathered exactly, whatever the gathering algorithm, the order 1, 2 or 3 and the l_lower_order_in_v setting.", "quantifier": "every particle position in the tile, field content, order 1 to 3, algorithm and order-lowering setting", "why_tests_cant": "A continuum of positions and field contents; the unrolled routines list every term by hand, per order and per setting, and a dropped term only shows for some settings.", "anchors": ["src/field_gathering/energy_conserving/field_gathering_o1_2d.F90 (pxr_getb2dxz_energy_conserving_vect_1_1)", "src/field_gathering/energy_conserving/field_gathering_o2_2d.F90 (pxr_getb2dxz_energy_conserving_vect_2_2)", "src/field_gathering/energy_conserving/field_gathering_o3_2d.F90 (pxr_geteb2dxz_energy_conserving_vect_3_3)", "src/field_gathering/field_gathering_manager_2d.F90"]}
{"id": "C84", "title": "Esirkepov deposition adds Esirkepov's current, all of it, and only near the particle", "statement": "The 3-D current deposition of order 1, 2 or 3 adds at every node exactly the current of Esirkepov's scheme (difference of the spline of that order before and after the move, summed along the direction of the current, averaged over the two transverse directions); summed over the grid and multiplied by the cell volume it is the sum of charge times weight times velocity; nodes further from the particle than the spline reaches are untouched; the order of the particles is irrelevant; and no other array is changed.", "quantifier": "every list of particles moving less than a cell whose shapes fit in the array, every grid spacing, time step and charge, orders 1 to 3", "why_tests_cant": "A continuum of positions, velocities and grid geometries, and the closed form must hold at every node.", "anchors": ["src/particle_deposition/current_deposition/current_deposition_3d.F90 (pxr_depose_jxjyjz_esirkepov_1_1_1, _2_2_2, _3_3_3)"]}
{"id": "C85", "title": "Depositing the current tile by tile gives the current of all the particles, whatever the tiles and the threads", "statement": "Cutting the particles in tiles, depositing each tile in its own arrays and adding these to the grid adds to the grid current exactly the current of all the particles to be deposited, each once; the result does not depend on the tiles nor on the number of threads or their interleaving, equals the deposition without tiles, and no access leaves the tile or grid arrays for particles inside their tiles.", "quantifier": "every division in tiles, every content of the tiles, orders 1 to 3, every number of threads and interleaving of the four parallel loops, every number of guard cells the input can give", "why_tests_cant": "Interleavings of unsynchronised read-modify-write accesses and all the divisions in tiles; a lost update needs a rare schedule.", "anchors": ["src/particle_deposition/current_deposition/current_deposition_manager_3d.F90 (pxrdepose_currents_on_grid_jxjyjz_esirkepov_sub_openmp, _esirkepov_sub_seq)", "src/parallelization/tiling/tiling.F90 (init_tile_arrays, set_tile_split)", "src/initialization/control_file.F90 (default_init)"]}
{"id": "C92", "title": "Depositing the charge tile by tile gives the charge of all the particles, whatever the threads", "statement": "The tile-by-tile charge deposition adds to the charge array the charge density of all the particles to be deposited, each exactly once, and changes no other array, for any number of threads and any interleaving.", "quantifier": "every division in tiles, every content of the tiles, orders 1 to 3, every number of threads and interleaving of the four parallel loops", "why_tests_cant": "Interleavings of unsynchronised read-modify-write accesses; a lost update needs a rare schedule.", "anchors": ["src/particle_deposition/charge_deposition/charge_deposition_manager.F90 (pxrdepose_rho_on_grid_sub_openmp_3d)"]}
{"id": "C87", "title": "Every option of the command line sets the parameter it names and no other", "statement": "An option `-keyword value` of the command line sets the parameter documented for this keyword to that value, and no other parameter; among options for the same parameter the last one counts; a leading input file name does not shift the options.", "quantifier": "every list of options of any length and order, every value", "why_tests_cant": "The keywords are found by substring search in a long chain of tests, so that one keyword can be taken for another; only a proof over all the keywords and lists of options shows which ones are.", "anchors": ["src/initialization/control_file.F90 (read_from_cl)"]}
{"id": "C88", "title": "Every keyword of a section of the input file sets the parameter it names and no other", "statement": "Inside a section, a line `keyword = value` sets the parameter documented for that keyword of that section (of the current species, antenna or particle dump), in the documented unit, and changes nothing else; the name of a species in a particle dump selects that species.", "quantifier": "every section, every keyword, every position of the keyword and of the equal sign, every value", "why_tests_cant": "Keywords are found by substring search in chains of tests whose order matters; the number of pairs of keywords and of line layouts is unbounded.", "anchors": ["src/initialization/control_file.F90 (read_cpusplit_section ... read_antenna_section)"]}
{"id": "C89", "title": "The input file means its sections, whatever their order, and the last setting of a parameter counts", "statement": "Reading an input file made of sections gives the parameters, species and particle dumps that these sections describe, whatever the number and order of the sections and the lines between them; a parameter that no line sets keeps its value, and the last line that sets it counts.", "quantifier": "every file: any number, order and content of sections, any lines before and between them", "why_tests_cant": "Files of any length; section readers keep hidden state between calls.", "anchors": ["src/initialization/control_file.F90 (read_input_file and the section readers)"]}
{"id": "C90", "title": "An integer written after the equal sign is the integer read", "statement": "A line `keyword = n` gives the parameter the integer n, wherever n is written after the equal sign and however many digits it has, or an error is reported.", "quantifier": "every integer, every number of blanks", "why_tests_cant": "Fixed-width reading silently drops what lies beyond the tenth column; depends on layout and number of digits.", "anchors": ["src/initialization/control_file.F90 (READ with format i10)"]}
{"id": "C93", "title": "Each section species, antenna and particle_dump makes one object at its rank, with its own settings", "statement": "The number of species is that of the sections species plus twice that of the antennas; the k-th has the default values changed by the settings of its section only; an antenna makes two species that differ only by their opposite charges; there is no limit on the number, or exceeding it is reported.", "quantifier": "every file, any number and order of such sections", "why_tests_cant": "Object arrays of fixed size and the current-object pointer are updated section after section; any number of sections.", "anchors": ["src/initialization/control_file.F90 (read_species_section, read_antenna_section, read_particle_dumps_section, init_species_section)"]}
{"id": "C94", "title": "Comments have no effect", "statement": "Removing the lines that contain # from an input file does not change the parameters, the species or the particle dumps.", "quantifier": "every file, every comment text and position", "why_tests_cant": "The text of a comment is arbitrary and may contain keywords or section headers.", "anchors": ["src/initialization/control_file.F90 (read_input_file and the section readers)"]}
{"id": "C95", "title": "Deposition in a plane conserves charge and deposits the stated shapes, in x-z and r-z", "statement": "In two dimensions the charge deposition adds the product of the shape factors of order 0 to 3 of every particle (in r-z across the radius), the Esirkepov deposition adds the current of its move, all within the arrays when these contain the shapes; the divergence of the deposited current is the decrease of the deposited density at every node; totals are charge and charge times velocity; the unrolled routines of order 1, 2, 3 give the same as the routine of any order when particles move less than a cell, and the order of the particles does not matter.", "quantifier": "every list of particles, orders 0 to 3 in each direction, both geometries, every grid and time step (any number of cells per step for the routine of any order)", "why_tests_cant": "Positions, velocities and the number of cells crossed are arbitrary; local arrays live across particles and are indexed by the displacement.", "anchors": ["src/particle_deposition/current_deposition/esirkepov/esirkepov_2d.F90 (pxr_depose_jxjyjz_esirkepov2d_n, _1_1, _2_2, _3_3)", "src/particle_deposition/charge_deposition/charge_deposition_2d.F90 (pxr_depose_rho_n_2dxz, pxr_depose_rhoold_n_2dxz)", "src/particle_deposition/current_deposition/current_deposition_manager_2d.F90 (depose_jxjyjz_generic_2d)"]}
{"id": "C96", "title": "Dividing by the cell volumes in r-z gives densities that conserve charge, on and off the axis", "statement": "After the division by the cell volumes, charge density times ring volume is the charge deposited on the row and on its mirror image below the axis, every deposited charge is counted exactly once, the azimuthal current vanishes on the axis, and density and current satisfy the discrete cylindrical continuity equation that the r-z field solver relies on at every node, with the axis cell at the axis. This holds for every allowed axis treatment and every inner radius.", "quantifier": "every array content and size, every list of particles and shape order, every inner radius, both axis treatments", "why_tests_cant": "Depends on the number of guard rows, on where the grid starts relative to the axis and on arbitrary deposited values; a wrong factor on the axis row is invisible off the axis.", "anchors": ["src/particle_deposition/charge_deposition/charge_deposition_2d.F90 (apply_rz_volume_scaling_rho)", "src/particle_deposition/current_deposition/current_deposition_manager_2d.F90 (apply_rz_volume_scaling_j)"]}
{"id": "C97", "title": "The vectorised charge deposition gives the charge density, whatever the block length and the SIMD width", "statement": "The default charge deposition in three dimensions, which takes the particles by blocks, deposits on per-cell columns and adds these to the array in a vectorised loop, leaves in the array exactly what the scalar deposition leaves: the previous content plus the charge density of the particles at every node, within the bounds of the array. The block length and the number of SIMD lanes have no effect.", "quantifier": "every list of particles of a tile, every tile size and number of guard cells, orders 1 to 3, every block length, every SIMD width", "why_tests_cant": "Index arithmetic on a flat array wraps silently from row to row: a wrong offset is right for most positions, sizes and orders, and a wrong dependence between lanes shows only for some vector widths.", "anchors": ["src/particle_deposition/charge_deposition/charge_deposition_3d.F90 (depose_rho_vecHVv2_1_1_1, depose_rho_vecHVv2_2_2_2, depose_rho_vecHVv4_3_3_3)", "src/particle_deposition/charge_deposition/charge_deposition_manager.F90 (rhodepo)"]}
{"id": "C98", "title": "The initial plasma has the density asked for, whatever the decomposition", "statement": "At the start, every cell whose middle lies in the region of a species holds macroparticles of total weight density times volume, evenly spaced, and every other cell holds none; antennas get none. The macroparticles of all processes together are those of a single process, for every Cartesian decomposition. Every particle lies in the subdomain of the process, is stored in a tile with all its attributes, and its momentum and inverse Lorentz factor belong to its velocity, which is the drift plus an isotropic thermal part. The loading succeeds for thermal and drift velocities below the speed of light. The random distributions respect the region as well.", "quantifier": "every subdomain, region, number of particles per cell, density, drift and thermal velocity, every sequence of random numbers, every decomposition, every list of species", "why_tests_cant": "Rounding of the limits of the region against the limits of every subdomain can lose or double a layer of cells for particular cuts only; rare random numbers decide about superluminal particles.", "anchors": ["src/parallelization/tiling/tiling.F90 (load_particles, add_particle_to_species)"]}
{"id": "C99", "title": "A laser antenna emits the asked field from the asked plane, whatever the decomposition", "statement": "Loading an antenna puts one pair of emitters at rest in each point, over the middle of a cell, of the plane through the spot orthogonal to the direction of the laser; the emitters of all processes together are those of a single process. At every step each emitter has the velocity of the asked field (two polarisations with a phase shift, Gaussian waist, pulse, continuous wave or Hann window) at the middle of the step and at its point, scaled to at most one hundredth of the speed of light; the pair moves symmetrically about its point, and its current over the area of a cell is the one that radiates the asked field. The length of the blocks has no effect; amplitudes given from outside are taken in the order of the tiles. A null direction is reported.", "quantifier": "every direction, polarisation, spot, amplitude, wavelength, waist, profile setting, every subdomain and Cartesian decomposition, every list of steps, every content of the tiles, every block length", "why_tests_cant": "Oblique planes meet subdomain limits in arbitrary ways and a test compares a few runs; the current must be right for every orientation and cell size.", "anchors": ["src/parallelization/tiling/tiling.F90 (load_laser_species)", "src/particle_pushers/laser_pusher_manager_3d.F90 (push_laser_particles, laser_pusher_profile, laserp_pusher_gaussian, laserp_pusher_hanning, gaussian_profile, hanning_profile)"]}
{"id": "C100", "title": "A field file contains the field of the whole domain, whatever the decomposition", "statement": "A dump of a field writes one file: a header with the limits of the domain and the numbers of cells, then one value per cell of the global grid, x fastest. Every value is the one that the only process owning that cell holds; no byte is written twice or left unwritten. Two runs with different decompositions that hold the same field write the same file. A field is dumped exactly at the asked steps, and dumps of different fields or steps go to different files.", "quantifier": "every domain, every Cartesian decomposition, every number of guard cells, every content of the arrays, every order in which the processes write, every step", "why_tests_cant": "The file offsets depend on the cuts in three directions and on guard cells; a test compares a few decompositions and a wrong offset may hit bytes that another process rewrites.", "anchors": ["src/ios/simple_io.F90 (output_routines, write_3d_field_array_to_file, write_single_array_to_file)", "src/housekeeping/mpi_derived_types.F90 (create_3d_array_derived_type, create_grid_derived_type)"]}
{"id": "C101", "title": "The divergence diagnostics give the divergence, and the Gauss norm does not depend on the decomposition", "statement": "The dumped div E and div J are the discrete divergences at every point of the file; div B is the discrete divergence at every cell of the file. The temporal diagnostic of Gauss's law is the norm of eps0 div E - rho over the global grid, whatever the decomposition, and is zero exactly if the law holds everywhere; a solver step with a charge-conserving current does not change it.", "quantifier": "every size of the arrays, every field, every order of the parallel loops, every Cartesian decomposition, every charge density", "why_tests_cant": "The last point of one process is the first of the next, so the ranges must tile the grid for every split; garbage at unset points shows only for some allocations.", "anchors": ["src/diags/diags.F90 (calc_field_div, calc_field_divB, get_loc_norm_divErho, get_loc_norm_2, get_norm_divErho)", "src/ios/simple_io.F90 (output_routines, output_temporal_diagnostics)"]}
{"id": "C102", "title": "A particle dump contains exactly the particles in the asked window", "statement": "At the asked steps the particles of a species whose coordinates and momenta are inside the asked window are written, each with its seven values, whatever the distribution over tiles and processes; no other particle is written, no place of the file is left without a value, no memory outside the arrays is touched. Dumps of different species or at different steps go to different files.", "quantifier": "every window, every set of particles, every distribution over tiles and processes, every order of the writes, every list of dumps, every step", "why_tests_cant": "Selection and copy go tile by tile with positions that accumulate; with one tile or one process everything is right, with others only the identity of the particles is wrong, not their number.", "anchors": ["src/ios/simple_io.F90 (write_particles_to_file, get_particles_to_dump, concatenate_particle_variable, write_particle_variable)"]}
{"id": "C103", "title": "Each temporal diagnostic that is switched on has a file with one record per output, with the value of the whole domain", "statement": "For each of the ten temporal diagnostics switched on in the input file there is a file that begins with the number of values per record and the time between records and then has, for every output step in order, the sum over all processes of the local values (per species for the kinetic energy), under a square root for the norms. Other outputs of the run do not disturb these files.", "quantifier": "every selection of diagnostics, every number of species, every number of processes, every sequence of outputs and field dumps, every local values", "why_tests_cant": "Which process writes which diagnostic through which unit depends on the selection and the number of processes: 1024 selections times any number of processes; unset indices give plausible garbage.", "anchors": ["src/diags/diags.F90 (init_temp_diags)", "src/ios/simple_io.F90 (output_temporal_diagnostics, write_3d_field_array_to_file)", "src/initialization/control_file.F90 (default_init, read_temporal_output_section)"]}
{"id": "C104", "title": "The finite-difference stencils have the order asked for", "statement": "The coefficients computed for a stencil of even order p give the exact first derivative of every polynomial of degree at most p, on staggered and on unstaggered grids, both for the pseudo-spectral solver and for the finite-difference solvers.", "quantifier": "every even order, every polynomial up to this degree, every point, every spacing", "why_tests_cant": "Tests run with the two or three orders that are in use; the coefficients of the other orders come from recurrences or from logarithms of factorials that a test of one order does not settle.", "anchors": ["src/field_solvers/Maxwell/GPSTD_solver/init_kspace_3D.F90 (FD_weights_hvincenti, logfactorial)", "src/submain.F90 (FD_weights, init_stencil_coefficients)"]}
{"id": "C105", "title": "The wave numbers of the pseudo-spectral solver are those of the differences asked for", "statement": "For every mode of the transform, the wave numbers kept by the solver are the factors by which the differences of the order asked for (the derivative itself for infinite order) multiply the wave of this mode; on a staggered grid forward and backward wave numbers belong to the forward and backward differences, their product is the square of the wave number from which the frequency is computed, and only the constant wave has wave number zero.", "quantifier": "every number of points, mode, cell size, even order or infinite order, staggered or not", "why_tests_cant": "A test propagates a few waves on one grid; a wrong sign at the upper half of the spectrum or a wrong factor at one order shows only for other modes, orders and numbers of points.", "anchors": ["src/field_solvers/Maxwell/GPSTD_solver/init_kspace_3D.F90 (compute_k_1d, fftfreq, FD_weights_hvincenti)"]}
{"id": "C106", "title": "A step of the pseudo-spectral solver is exact in time", "statement": "On a periodic staggered grid, if the fields satisfy Gauss' law with the old charge density and div B = 0, and the current satisfies the equation of continuity with the old and the new charge density, one step gives exactly the values which the solution of Maxwell's equations (finite differences of the chosen even orders in space, no approximation in time, constant current) has at the end of the time step, for any time step, in two and three dimensions; the coefficients are computed without division by zero.", "quantifier": "every grid size, orders, cell sizes, time step, fields, currents and charge densities with these relations", "why_tests_cant": "A test compares one plane wave or one current with a formula up to a tolerance; the statement is about all modes at once, including the constant mode and the modes that the real transform does not store.", "anchors": ["src/field_solvers/Maxwell/GPSTD_solver/init_kspace_3D.F90 (init_kspace, init_gpstd, compute_cc_mat_merged_fields)", "src/field_solvers/Maxwell/GPSTD_solver/fourier_psaotd.F90 (push_psaotd_ebfielfs_3d, push_psaotd_ebfielfs_2d, execute_fftw_mpi / fft forward and backward)", "src/field_solvers/Maxwell/maxwell_solver_manager.F90 (push_psatd_ebfield)"]}
{"id": "C107", "title": "The pseudo-spectral solver keeps Gauss' law, div B and the energy, whatever the time step", "statement": "If Gauss' law and div B = 0 hold before the first step and the deposited currents satisfy the equation of continuity, both hold after every step; in vacuum the energy of the fields on the grid is the same after any number of steps and for any time step; with a constant current, n steps give the solution at the end of the n steps, so the result does not depend on how a time is divided into steps.", "quantifier": "every number of steps, grid, orders, time step, sequence of currents and charge densities", "why_tests_cant": "A test follows a run for some steps and allows a tolerance; slow growth or instability for another time step is not excluded by it.", "anchors": ["src/field_solvers/Maxwell/GPSTD_solver/init_kspace_3D.F90 (init_gpstd)", "src/field_solvers/Maxwell/GPSTD_solver/fourier_psaotd.F90 (push_psaotd_ebfielfs_3d, push_psaotd_ebfielfs_2d)"]}
{"id": "C108", "title": "The two ways to push the fields in Fourier space agree", "statement": "With g_spectral on or off, one step of the pseudo-spectral solver gives the same fields: the multiplication with the block matrix, of which only the useful blocks are stored, stays within its arrays and equals the explicit formulas, in two and three dimensions.", "quantifier": "every grid size, order, staggering, time step, all fields, currents and charge densities, and whatever the result arrays held before", "why_tests_cant": "A test compares the two on some fields; a block that is missing from the list of useful blocks, or one allocated with one element, matters only for particular components and grid sizes.", "anchors": ["src/field_solvers/Maxwell/GPSTD_solver/GPSTD.F90 (multiply_mat_vector, multiply_unit_blocks)", "src/field_solvers/Maxwell/GPSTD_solver/init_kspace_3D.F90 (is_usefull_per, init_gpstd, compute_cc_mat_merged_fields)", "src/field_solvers/Maxwell/maxwell_solver_manager.F90 (push_psatd_ebfield)"]}
{"id": "C109", "title": "Splitting the fields for absorbing layers does not change their evolution", "statement": "With absorbing layers each field component is kept as two parts; where nothing is damped, the sums of the parts advance exactly as the fields advance without absorbing layers, however the fields are split, without access outside of the arrays, for any number of steps.", "quantifier": "every grid size, orders, time step, way of splitting, sequence of currents and charge densities, number of steps", "why_tests_cant": "A test runs one splitting (usually one part zero); an error in one of the 51 coefficient blocks that acts only on the second parts is not seen.", "anchors": ["src/field_solvers/Maxwell/GPSTD_solver/init_kspace_3D.F90 (is_usefull_abs, compute_cc_mat_splitted_fields)", "src/field_solvers/Maxwell/GPSTD_solver/GPSTD.F90 (multiply_mat_vector)", "src/field_solvers/Maxwell/maxwell_solver_manager.F90 (merge_fields)"]}
{"id": "C110", "title": "Fields, currents and charge densities are transformed at their own points", "statement": "Before a transform every array of the transform holds, at each of its points, the value of the field, current or charge density at the same point of the grid, whatever the numbers of guard cells; after the transform back the fields are set at these points and nothing else changes.", "quantifier": "every numbers of cells, guard cells of the fields and of the currents, two or three dimensions, merged or split fields", "why_tests_cant": "Tests use equal numbers of guard cells; the offset between the arrays shows only when they differ.", "anchors": ["src/field_solvers/Maxwell/GPSTD_solver/init_kspace_3D.F90 (copy_field_forward, copy_field_backward)", "src/parallelization/mpi/mpi_routines.F90 (allocate_grid_quantities)"]}
{"id": "C111", "title": "The table of pair energies holds the distribution of pair energies", "statement": "For every photon with a positive quantum parameter the rate function is positive and the cumulative distribution of the share of the electron is a strictly increasing distribution from 0 to 1 that treats electron and positron alike; every entry of the table computed by the engine, the end columns that are set to 0 and 1/2 without integrating included, is the value of this distribution at its node.", "quantifier": "all positive quantum parameters, table ranges and sizes of at least two rows and columns, all entries", "why_tests_cant": "A test compares a few values of the distribution; that the symmetric half table with fixed ends is right and increasing everywhere needs the integral.", "anchors": ["src/multi_physics/QED/src/breit_wheeler_engine.hpp (compute_TT_function, compute_TT_integrand, compute_cumulative_pair, compute_cumulative_pair_table)", "src/multi_physics/QED/src/special_functions.hpp (k_v)", "src/multi_physics/QED/src/quadrature.hpp"]}
{"id": "C112", "title": "The table of photon energies holds the inverse of the distribution of photon energies", "statement": "For every lepton with a positive quantum parameter the emission rate function is positive and the cumulative distribution of the share of the photon is strictly increasing from 0 to 1, takes every value in between once and is 1 beyond; every entry of the table computed by the engine is the share at which the distribution takes the probability of its column, between 0 and 1 and increasing along each row, so that the emission with this table never reverses the momentum of the lepton.", "quantifier": "all positive quantum parameters, table ranges and sizes of at least two rows and columns, all entries, all root finders that find a root when there is one", "why_tests_cant": "A test looks at a few entries; the guard against results below the previous one could cut off the root for some entry.", "anchors": ["src/multi_physics/QED/src/quantum_sync_engine.hpp (compute_KK_function, compute_KK_integrand, compute_cumulative_phot_em, compute_cumulative_phot_em_table)", "src/multi_physics/QED/src/special_functions.hpp (k_v)", "src/multi_physics/QED/src/quadrature.hpp"]}
{"id": "C113", "title": "Rates from the tables agree with the rates computed directly", "statement": "Within the range of the table the rate of pair production or photon emission from the table is the formula with a value of the integral between those at the two neighbouring nodes, and at a node it is the rate computed without the table.", "quantifier": "all table ranges and sizes of at least two nodes, energies, reference lengths and quantum parameters inside the range", "why_tests_cant": "A test compares a few quantum parameters with a tolerance; the bound by the neighbouring nodes has to hold for all.", "anchors": ["src/multi_physics/QED/src/breit_wheeler_engine.hpp (compute_dN_dt, compute_dN_dt_lookup_table, interp_dN_dt, set_lambda)", "src/multi_physics/QED/src/quantum_sync_engine.hpp (compute_dN_dt, compute_dN_dt_lookup_table, interp_dN_dt)"]}
{"id": "C114", "title": "Direct current deposition adds charge density times velocity", "statement": "With the direct deposition every node of the three current arrays receives, for every particle of the tile, its charge density at the middle of the step, with the spline of the chosen order and at the place of the component on the staggered or nodal grid, times its velocity; nothing else changes, the order of the particles does not matter, and the sum of each component times the volume of a cell is the sum of charge times velocity. Together with the charge density it satisfies the continuity equation on the grid.", "quantifier": "all lists of particles of a tile that move less than a cell, orders 1 to 3, staggered and nodal grids, cell sizes, initial arrays", "why_tests_cant": "A test compares one particle; that every node of a tile of any size gets the right share and no access leaves the arrays must hold for all positions, the edge of the tile included.", "anchors": ["src/particle_deposition/current_deposition/direct/direct_current_deposition_3d.F90 (depose_jxjyjz_scalar_1_1_1, depose_jxjyjz_scalar_2_2_2, depose_jxjyjz_scalar_3_3_3)", "src/particle_deposition/current_deposition/current_deposition_manager_3d.F90 (pxrdepose_currents_on_grid_jxjyjz)"]}
{"id": "C115", "title": "Vectorised direct current deposition gives the same current as the scalar one", "statement": "The direct deposition that adds the particles to one array of cells per tile and reduces it to the current arrays once for all species gives the array the scalar deposition gives, for every vector length, every block length and every set of species.", "quantifier": "all sets of species and particles of a tile, orders 1 to 3, tile sizes and guard cells, SIMD widths and block lengths", "why_tests_cant": "The reduction visits cells outside the particles' reach, so whether it stays inside the array depends on guard cells and order, not on the particles of a test.", "anchors": ["src/particle_deposition/current_deposition/direct/direct_current_deposition_3d.F90 (depose_jxjyjz_vecHV_vnr_1_1_1, depose_jxjyjz_vecHV_vnr_2_2_2, depose_jxjyjz_vecHV_vnr_3_3_3, current_reduction_1_1_1, current_reduction_2_2_2, current_reduction_3_3_3)", "src/particle_deposition/current_deposition/current_deposition_manager_3d.F90 (pxrdepose_currents_on_grid_jxjyjz_classical_sub_openmp_v2)"]}
{"id": "C116", "title": "The field filter is a symmetric convolution along z", "statement": "Applying the filter writes, at every cell of the given range and nowhere else, the convolution of the input field along z with the symmetric stencil, in two and three dimensions; it runs inside the arrays exactly when the input has as many extra cells on both sides as the stencil has values minus one.", "quantifier": "all ranges, array bounds, stencil lengths and values, input and output fields", "why_tests_cant": "A test uses one array and one stencil length; the number of guard cells needed depends on both.", "anchors": ["src/filtering/nci_godfrey_corr.F90 (apply_godfrey_filter_z_2d, apply_godfrey_filter_z_3d)"]}
{"id": "C117", "title": "The filter against the numerical Cherenkov instability is stable", "statement": "For every ratio c dt/dz between 0 and 1 the filter that the library computes leaves constant fields unchanged, multiplies every wave along z by a real factor that is never above 1 and never below -1/700, and suppresses the shortest wave of the grid to 1/700; with a wrong stencil length or without the Galerkin scheme the program stops.", "quantifier": "all ratios in [0,1], all wavelengths, amplitudes and phases, both stencils", "why_tests_cant": "A test samples ratios and wavelengths; amplification of a single wavelength at a single ratio would make a simulation unstable.", "anchors": ["src/filtering/nci_godfrey_corr.F90 (init_godfrey_filter_coeffs, coeff_ex_galerkin, coeff_by_galerkin)"]}
{"id": "C118", "title": "Filter coefficients are interpolated in the table", "statement": "The filter for a ratio c dt/dz that is in the table has the coefficients of the table, between two ratios of the table it is the linear interpolation of their coefficients, so it depends continuously on the ratio, and all columns of the table up to the ratio 1 are used.", "quantifier": "all ratios in [0,1], both tables", "why_tests_cant": "A test of one ratio sees plausible numbers, since neighbouring columns are close.", "anchors": ["src/filtering/nci_godfrey_corr.F90 (init_godfrey_filter_coeffs)"]}
{"id": "C119", "title": "A particle step moves every particle exactly once", "statement": "The particle step of a 3D run, with field gathering and push in one or in two parallel regions, gives every particle of every species that is neither antenna nor frozen the fields interpolated at its position from the whole grid, the momentum of the chosen pusher and the position reached with the new velocity, exactly once, leaves the other species alone, stays inside all arrays, and its result does not depend on the division into tiles, the number of threads or the distribution of tiles over threads.", "quantifier": "all tiles, species, particles, fields, interpolation orders 1 to 3, gathering options, pushers, numbers of threads and schedules", "why_tests_cant": "Tile arrays are private to threads and kept from one tile to the next, so the outcome of a test depends on the schedule it happened to get.", "anchors": ["src/particle_pushers/particle_pusher_manager_3d.F90 (field_gathering_plus_particle_pusher, field_gathering_plus_particle_pusher_sub, pxr_particle_pusher...)", "src/field_gathering/field_gathering_manager_3d.F90 (field_gathering_sub)"]}
{"id": "C120", "title": "The default particle step does what the separate ones do", "statement": "The default form of the particle step, which gathers and pushes block by block in one loop, has the same result as gathering and pushing separately, for every block length, all interpolation orders and options, and every pusher of the input.", "quantifier": "all block lengths, particle numbers, orders, gathering options, pushers, tiles, fields and schedules", "why_tests_cant": "The default form has its own copies of the gathering kernels; a test compares one order and one number of particles.", "anchors": ["src/particle_pushers/particle_pusher_manager_3d.F90 (field_gathering_plus_particle_pusher_cacheblock_sub, field_gathering_plus_particle_pusher_1_1_1, _2_2_2, _3_3_3)"]}
{"id": "C121", "title": "The tiles the code makes suffice for the particle step", "statement": "For every grid size, number of tiles and interpolation order the tiles with their guard cells lie inside the field arrays and hold all the nodes that the interpolation at their particles needs.", "quantifier": "all grid sizes, tile numbers, orders 1 to 3, numbers of guard cells for fields and currents, positions in the tile", "why_tests_cant": "A test uses one division of one grid.", "anchors": ["src/parallelization/tiling/tiling.F90 (set_tile_split_for_species, init_tile_arrays_for_species)", "src/particle_pushers/particle_pusher_manager_3d.F90"]}
{"id": "C122", "title": "The pair-production program conserves particles and energy", "statement": "The test program (photons pushed, their optical depth evolved, those that decay replaced by an electron-positron pair) runs to the end for any number of steps. In each step exactly the photons whose decay the engine reports are removed, and each gives one electron and one positron with the momenta the engine generates. Photons plus electrons stay as many as at the start, electrons and positrons appear together, and without electric field the total energy is conserved.", "quantifier": "all photon populations, numbers of steps, field functions, tables and draws in [0,1)", "why_tests_cant": "A run is one population and one seed; the removal rearranges the arrays while other species grow.", "anchors": ["src/multi_physics/test_program/src/main.cpp (test_BW)", "src/multi_physics/test_program/src/species.cpp (do_process_with_destruction, remove_particles_given_sorted_indices)"]}
{"id": "C123", "title": "Photons of the program decay exponentially", "statement": "In uniform constant fields, after n steps exactly those photons are left whose initial optical depth is at least decay rate times elapsed time, i.e. whose initial draw u is at least 1 - exp(-rate n dt).", "quantifier": "all momenta, draws, step numbers, time steps and uniform fields", "why_tests_cant": "A decay law is about all draws and all numbers of steps; a test counts photons of one seed.", "anchors": ["src/multi_physics/test_program/src/main.cpp (test_BW)", "src/multi_physics/QED/src/breit_wheeler_engine.hpp"]}
{"id": "C124", "title": "Pairs are born where their photon decays", "statement": "In one step every photon moves along its momentum by the time step times the speed of light, and a pair is born at the point of the path its photon has reached at the time of its decay.", "quantifier": "all photons, fields, rates and depths", "why_tests_cant": "The place depends on depth and rate, real numbers; output is written only at the end of steps.", "anchors": ["src/multi_physics/test_program/src/main.cpp (BW_opticaldepth, BW_pair_prod)", "src/multi_physics/test_program/src/photons.cpp (push_positions)"]}
{"id": "C125", "title": "Output files of the species", "statement": "Files of different species or steps have different names; a file holds the number of particles and one line per particle in storage order, with one value per column that the line of labels names.", "quantifier": "all names, steps and populations", "why_tests_cant": "Names are arbitrary strings and steps arbitrary integers.", "anchors": ["src/multi_physics/test_program/src/species.cpp (print_on_disk)"]}
{"id": "C126", "title": "Messages between the field grid and the transform grid fit", "statement": "In the grouped spectral solver (fftw_hybrid), when fields are copied between the subdomains of the processes and the slabs that are Fourier transformed, sender and receiver of every message compute the same number of elements, every send has its receive, and nothing is read or written outside of the arrays.", "quantifier": "all numbers of processes, groups, cells and guard cells, both directions of the copy, every pair of processes", "why_tests_cant": "Both sides compute sizes on their own from overlapping intervals; a test runs a few decompositions.", "anchors": ["src/housekeeping/load_balancing.F90 (get2D_intersection_group_mpi, compute_send_recv_sizes_and_index_l2g_copies, compute_send_recv_sizes_and_index_g2l_copies)", "src/parallelization/mpi/mpi_routines.F90 (setup_groups)"]}
{"id": "C127", "title": "The groups and slabs of the grouped solver cover the domain", "statement": "Whenever the set-up of the groups accepts a decomposition, the groups cover the domain without gaps and overlaps, the slabs of a group cover the cells of the group and its guard cells, and a process that is a group of its own transforms its own subdomain.", "quantifier": "all numbers of processes, groups, cells and guard cells that the set-up accepts", "why_tests_cant": "Remainders of two divisions (cells by groups, planes by processes) and the split of the cells have to match for all sizes.", "anchors": ["src/parallelization/mpi/mpi_routines.F90 (setup_groups)", "src/housekeeping/load_balancing.F90 (get2D_intersection_group_mpi)"]}
{"id": "C128", "title": "The transform arrays get the fields of their cells", "statement": "After the copy to the transforms, every element of the transform array of every process holds the field of the cell it stands for (in a periodic direction, up to whole periods), whatever the order in which messages travel, with blocking and with non-blocking communication; elements beyond an absorbing boundary and the fields themselves are unchanged.", "quantifier": "all decompositions, fields and schedules", "why_tests_cant": "Message order is not under control of a test, and wrap-around of guard cells depends on the sizes.", "anchors": ["src/boundary_conditions/field_boundaries.F90 (sendrecv_l2g_generalized, sendrecv_l2g_generalized_non_blocking)", "src/field_solvers/Maxwell/GPSTD_solver/fourier_psaotd.F90 (get_Ffields_mpi_lb)", "src/housekeeping/load_balancing.F90 (compute_send_recv_sizes_and_index_l2g_copies)"]}
{"id": "C129", "title": "The fields come back from the transform arrays", "statement": "After the copy back, every cell of every subdomain holds the value of exactly one element of the transform arrays, the one that stands for this cell in the group the cell belongs to; guard cells of the groups are not used, nothing else is changed.", "quantifier": "all decompositions, array contents and schedules", "why_tests_cant": "Same as C128; groups overlap in their guard cells, so that several processes hold a value for a cell.", "anchors": ["src/boundary_conditions/field_boundaries.F90 (sendrecv_g2l_generalized, sendrecv_g2l_generalized_non_blocking)", "src/field_solvers/Maxwell/GPSTD_solver/fourier_psaotd.F90 (get_fields_mpi_lb)", "src/housekeeping/load_balancing.F90 (compute_send_recv_sizes_and_index_g2l_copies)"]}
{"id": "C130", "title": "Copy to the transforms and back changes nothing", "statement": "If the transforms leave their arrays as they are, the copy to them followed by the copy back gives every cell its value again.", "quantifier": "all decompositions in which no process meets a slab in two periods, all fields, all schedules of both copies", "why_tests_cant": "A round trip over all decompositions and schedules.", "anchors": ["src/boundary_conditions/field_boundaries.F90 (generalized_comms_group_l2g, generalized_comms_group_g2l)"]}
{"id": "C131", "title": "The exchanges of the grouped solver end", "statement": "Every run of the exchanges ends after a bounded number of steps with all communications complete and no message left over; the requests of the non-blocking version fit in their array.", "quantifier": "all decompositions and schedules, all values of mpicom_curr", "why_tests_cant": "Deadlock depends on the schedule; every process lists its communications on its own.", "anchors": ["src/boundary_conditions/field_boundaries.F90 (sendrecv_l2g_generalized, sendrecv_l2g_generalized_non_blocking)", "src/housekeeping/load_balancing.F90 (compute_effective_communication_setup)"]}
{"id": "C132", "title": "The default particle exchange sorts every particle once", "statement": "In the default 3-D exchange, before any communication, every particle of every tile is handled exactly once: it stays in a tile whose limits contain it (also when it is put back at a wall), is put with all attributes in the message to exactly one neighbour, or is absorbed. No buffer is written outside of its bounds, however many particles leave.", "quantifier": "all numbers of species and tiles, all contents, all particle positions, all initial buffer sizes", "why_tests_cant": "Buffers grow with the particles, tiles are changed while they are scanned; a test has a few particles.", "anchors": ["src/boundary_conditions/particle_boundaries.F90 (particle_bcs_tiles_and_mpi_3d, particle_bcs)"]}
{"id": "C133", "title": "The default particle exchange delivers every particle", "statement": "After the default 3-D exchange every tile of every process holds exactly the particles that stayed and belong to it and the particles sent by its neighbours that belong to it, each once and with all attributes; the exchange ends, no message is left over, and the number of particles over all processes is unchanged up to absorbed ones.", "quantifier": "all process grids, contents and schedules of messages; counts as at the time they are posted", "why_tests_cant": "Message order is not under control of a test; small runs have few tiles, so that all tiles are at the border.", "anchors": ["src/boundary_conditions/particle_boundaries.F90 (particle_bcs_tiles_and_mpi_3d)"]}
{"id": "C134", "title": "The receiver learns the right number of particles", "statement": "In the default 3-D exchange, every process receives for every direction the number of particles that its neighbour sends in this direction.", "quantifier": "all counts and all moments at which the message-passing library may read the send buffers", "why_tests_cant": "Libraries usually copy short messages at once; the standard allows reading until the wait.", "anchors": ["src/boundary_conditions/particle_boundaries.F90 (particle_bcs_tiles_and_mpi_3d)"]}
{"id": "C135", "title": "The stored number of particles of a species", "statement": "After the default 3-D exchange, the stored number of particles of a species equals the number of particles in its tiles, if it did before.", "quantifier": "all contents and process grids", "why_tests_cant": "The number is used for output and diagnostics only; the drift shows after many steps.", "anchors": ["src/boundary_conditions/particle_boundaries.F90 (particle_bcs_tiles_and_mpi_3d)", "src/parallelization/tiling/tiling.F90 (get_local_number_of_part)"]}
{"id": "C136", "title": "Gathering from azimuthal modes interpolates the field the modes stand for", "statement": "In cylindrical geometry with azimuthal modes, the electric and magnetic field added to a particle is the spline interpolation, at the radius and longitudinal position of the particle and at the places where each component lives, of the field Re sum_m a_m exp(-i m theta), turned to Cartesian components at the angle of the particle; no array is read outside of its bounds.", "quantifier": "all particles, orders, numbers of modes, options of order reduction and of nodal or Yee grid, all field values", "why_tests_cant": "Usual tests use few modes, one order and fields that vary slowly; a displacement by half a cell or a cell shows as loss of accuracy.", "anchors": ["src/field_gathering/energy_conserving/field_gathering_on_circ.F90 (pxr_gete2drz_n_energy_conserving, pxr_getb2drz_n_energy_conserving)", "src/field_gathering/field_gathering_manager_circ.F90 (geteb2dcirc_energy_conserving)"]}
{"id": "C137", "title": "A uniform field is gathered exactly from its modes", "statement": "If modes 0 and 1 hold a uniform electric and magnetic field, every particle gathers this field exactly, also on the axis, for every interpolation order and option.", "quantifier": "all uniform fields, particles inside of the arrays, orders, options", "why_tests_cant": "Orders, options and the axis give many cases; the identity is exact for all of them.", "anchors": ["src/field_gathering/energy_conserving/field_gathering_on_circ.F90", "src/field_gathering/field_gathering_manager_circ.F90"]}
{"id": "C138", "title": "Current deposition on azimuthal modes conserves charge on every mode", "statement": "In cylindrical geometry with azimuthal modes, the deposited currents Jr, Jtheta, Jz of every mode obey the discrete continuity equation with the charge of the particles before and after their move, exactly, at every node; the routine adds nothing else and stays inside of its arrays for particles not faster than light.", "quantifier": "all particles, charges, weights, orders 0 to 3 in each direction, numbers of modes, cell sizes and time steps", "why_tests_cant": "An exact identity over all positions, moves of any number of cells, orders and modes; a test samples a few.", "anchors": ["src/particle_deposition/current_deposition/esirkepov/esirkepov_circ.F90 (pxr_depose_jrjtjz_esirkepov_n_2d_circ)"]}
{"id": "C139", "title": "Charge conservation on modes after the division by the cell volumes", "statement": "After the currents of all modes have been folded back at the axis and divided by the cell volumes, they obey the continuity equation in cylindrical coordinates on every mode, at every node off the axis, and for mode 0 also on the axis.", "quantifier": "all particles, orders, modes, grids on and off the axis, both volume options", "why_tests_cant": "Errors near the axis are small in number of cells and depend on order and mode.", "anchors": ["src/particle_deposition/current_deposition/esirkepov/esirkepov_circ.F90 (apply_2dcirc_volume_scaling_j)"]}
{"id": "C140", "title": "The current on the axis is regular", "statement": "After the division by the cell volumes, on a grid that starts on the axis, the currents on the axis are those of a vector field that is single-valued there: Jz has mode 0 only, Jtheta mode 1 only, and the transverse vector of mode 1 does not depend on the angle.", "quantifier": "all contents of the current arrays, all angles", "why_tests_cant": "Universally quantified over fields and angles.", "anchors": ["src/particle_deposition/current_deposition/esirkepov/esirkepov_circ.F90 (apply_2dcirc_volume_scaling_j)"]}
{"id": "C141", "title": "The library solver advances Maxwell's equations for the arrays of an outer code", "statement": "After init_params_picsar with eleven field arrays, solve_maxwell_fdtd_pxr advances the arrays by one step of Ampère's and Faraday's laws on the staggered grid, with differences of exactly the requested order in each direction, at every point the stencil reaches, and leaves the currents and the charge alone.", "quantifier": "all array sizes, guard widths, orders, cell sizes, time steps, contents of the arrays and thread schedules; left-handed and right-handed numbering of the axes", "why_tests_cant": "An identity over all fields, orders and grids; a sign error shows only for fields that a test with a symmetric wave does not contain.", "anchors": ["src/init_external.F90 (init_params_picsar, evec3d_push_norder, bvec3d_push_norder, solve_maxwell_fdtd_pxr)"]}
{"id": "C142", "title": "The library solver stays inside of the arrays it was given", "statement": "For every request, also with odd or zero orders or fewer guard cells than the stencil needs, a call of solve_maxwell_fdtd_pxr reads and writes inside the arrays only, changes nothing outside them and gives one result for all thread schedules.", "quantifier": "all sizes, guard widths, orders, contents and thread schedules", "why_tests_cant": "Reads just beyond an array rarely crash; schedules are not under the control of a test.", "anchors": ["src/init_external.F90 (evec3d_push_norder, bvec3d_push_norder, solve_maxwell_fdtd_pxr)"]}
{"id": "C143", "title": "The library solver treats the axes alike", "statement": "An outer code that numbers its axes 2, 3, 1 instead of 1, 2, 3 (with the components and orders numbered accordingly) gets the same fields.", "quantifier": "all requests, all fields, all points of the arrays", "why_tests_cant": "Relates two runs at every point for every field.", "anchors": ["src/init_external.F90 (evec3d_push_norder, bvec3d_push_norder)"]}
{"id": "C144", "title": "The library solver keeps the divergences", "statement": "Over any number of calls, with the outer code depositing any currents and filling the guard cells in between, the divergence of B stays what it was and div E - rho stays what it was when rho follows the continuity equation.", "quantifier": "all histories of calls and of changes made by the outer code between them, all orders, all inner points, all thread schedules", "why_tests_cant": "An invariant over unbounded histories.", "anchors": ["src/init_external.F90 (solve_maxwell_fdtd_pxr)"]}
{"id": "C145", "title": "The library can be initialised again for another grid", "statement": "After any sequence of calls of init_params_picsar for the pseudo-spectral solver, the arrays in Fourier space are large enough for the transforms of the grid given last.", "quantifier": "all sequences of initialisations", "why_tests_cant": "Depends on the history of calls; tests initialise once.", "anchors": ["src/init_external.F90 (init_params_picsar)"]}
{"id": "C146", "title": "The solver on azimuthal modes advances Maxwell's equations in cylindrical coordinates", "statement": "A call of the multimode pushers advances each mode of E by Ampère's law and each mode of B by Faraday's law in cylindrical coordinates with the azimuthal derivative -im, at every point of the given boxes off the axis; points outside the boxes, the other components and the modes beyond nmodes keep their values; no array is exceeded and nothing is divided by zero.", "quantifier": "all boxes, array bounds, fields, numbers of modes, origins, cell sizes and time steps", "why_tests_cant": "An identity over all fields and modes; a wrong factor on one component or mode is invisible to plane test fields.", "anchors": ["src/field_solvers/Maxwell/yee_solver/yee.F90 (multimode r-z pushers)"]}
{"id": "C147", "title": "The solver on azimuthal modes keeps the divergences", "statement": "Over any sequence of electric and magnetic steps of any lengths, with the outer code depositing currents and filling guard points in between, on every mode div B stays what it was (in the cells on the axis as well) and div E - rho/eps0 stays what it was when rho follows the continuity equation (on the axis for mode 0).", "quantifier": "all histories, modes, nodes and cells inside of the boxes", "why_tests_cant": "An invariant over unbounded histories.", "anchors": ["src/field_solvers/Maxwell/yee_solver/yee.F90 (multimode r-z pushers)"]}
{"id": "C148", "title": "The fields on azimuthal modes are regular on the axis", "statement": "After a step on a grid that starts on the axis, the transverse electric field on the axis is one vector whatever the angle it is evaluated at, Ez on the axis has mode 0 only and follows the circulation of B around it, Br on the axis has mode 1 only.", "quantifier": "all fields (also irregular ones before the step), numbers of modes, angles, time steps and cell sizes", "why_tests_cant": "For all angles, modes and fields.", "anchors": ["src/field_solvers/Maxwell/yee_solver/yee.F90 (multimode r-z pushers)"]}
{"id": "C149", "title": "Deposition on azimuthal modes and solver together keep Gauss's law", "statement": "When the particles of a step deposit their current on the modes and the solver advances E with it, div E - rho/eps0 is kept on every mode, with rho the charge density of the particles before and after the step, off the axis and on it.", "quantifier": "all particles below the speed of light, orders 0 to 3, modes, nodes; both options for the volume on the axis", "why_tests_cant": "For all particles and positions; errors are confined to a few nodes near the axis.", "anchors": ["src/field_solvers/Maxwell/yee_solver/yee.F90 (multimode r-z pushers)", "src/particle_deposition/current_deposition (esirkepov_circ.F90)"]}
{"id": "C150", "title": "The grid snapshot is the field of the laboratory frame", "statement": "For every point of the array, the transformed Ex..Bz are the components of the boosted field tensor, Jx..Jz, rho those of the boosted four-current, whatever the order of the loop iterations; points outside the loop keep their values; an array with another number of quantities than 10 stops the program before anything is changed.", "quantifier": "all fields, sizes, orders of iterations, boosts", "why_tests_cant": "An identity over all fields and boosts; a factor c^2 on one component does not show up in tests with c = 1 or with a zero component.", "anchors": ["src/diags/diags.F90 (transform_lorentz2d, transform_lorentz3d)"]}
{"id": "C151", "title": "The particle snapshot places particles and their fields at the laboratory time of the output", "statement": "For particles that move along z slower than light between the two steps, nothing is divided by zero; each reported position is on the straight line between the two laboratory events of the particle at the laboratory time of the snapshot, and the reported fields are the laboratory fields of the two steps interpolated in the same way; without fields the field arrays are not touched.", "quantifier": "all particles, boosts, times, orders of iterations, both routines", "why_tests_cant": "For all boosts, positions and times; the sign of the frame velocity enters in four places.", "anchors": ["src/diags/diags.F90 (lorentz_transform_parts_with_fields, lorentz_transform_parts_without_fields)"]}
{"id": "C152", "title": "The particle snapshot reports the momentum of the laboratory frame", "statement": "The reported momentum and gamma of a particle are those of the laboratory frame, interpolated between the two steps.", "quantifier": "all particles, boosts, times", "why_tests_cant": "For all momenta and boosts.", "anchors": ["src/diags/diags.F90 (lorentz_transform_parts_with_fields, lorentz_transform_parts_without_fields)"]}
{"id": "C153", "title": "The particle snapshot is exact for uniform motion", "statement": "For a particle in uniform motion in the boosted frame, the reported position is a point of its world line seen in the laboratory at the time of the snapshot, and the reported momentum is its laboratory momentum.", "quantifier": "all particles slower than light, boosts, time steps and snapshot times (also outside of the two steps)", "why_tests_cant": "For all velocities, boosts and times.", "anchors": ["src/diags/diags.F90 (lorentz_transform_parts_with_fields, lorentz_transform_parts_without_fields)"]}
{"id": "C154", "title": "Engines are values", "statement": "A program may create, copy, move, assign, rebuild from innards, recompute, read from file and destroy engines in any order: as long as it names engines that are alive and an engine outlives those rebuilt from its innards, no memory is accessed out of bounds, after being freed or before being written, nothing is freed twice, exceptions are thrown exactly when a file is read into a table whose memory the engine does not own, and every engine holds the tables a value semantics gives it.", "quantifier": "all histories of operations, any number of engines, tables of all sizes", "why_tests_cant": "Histories are unbounded, and the faults (double free, dangling view) depend on the order of copies, moves and destructions.", "anchors": ["src/multi_physics/QED/src/breit_wheeler_engine.hpp (constructors, operator=, compute_dN_dt_lookup_table, compute_cumulative_pair_table, read_dN_dt_table, read_cumulative_pair_table, export_innards)", "src/multi_physics/QED/src/lookup_tables.hpp (lookup_1d, lookup_2d: constructors, operator=, read_from_stream_bin)", "src/multi_physics/QED/src/picsar_vector.hpp, picsar_array.hpp"]}
{"id": "C155", "title": "Engines do not share tables", "statement": "An operation on one engine changes no other engine: neither copies, nor engines rebuilt from the innards of the engine that is recomputed, assigned or moved.", "quantifier": "all histories, operations and engines", "why_tests_cant": "For all histories; aliasing shows up only for particular orders of operations.", "anchors": ["src/multi_physics/QED/src/breit_wheeler_engine.hpp (constructors, operator=, compute_dN_dt_lookup_table, compute_cumulative_pair_table, read_dN_dt_table, read_cumulative_pair_table, export_innards)", "src/multi_physics/QED/src/lookup_tables.hpp (lookup_1d, lookup_2d: constructors, operator=, read_from_stream_bin)", "src/multi_physics/QED/src/picsar_vector.hpp, picsar_array.hpp"]}
{"id": "C156", "title": "Destroyed engines leave no memory behind", "statement": "The arrays that are not freed are exactly those of the live engines; when all engines are destroyed, all arrays are freed.", "quantifier": "all histories", "why_tests_cant": "A leak does not change any result, and the number of lost arrays depends on the whole history.", "anchors": ["src/multi_physics/QED/src/breit_wheeler_engine.hpp (constructors, operator=, compute_dN_dt_lookup_table, compute_cumulative_pair_table, read_dN_dt_table, read_cumulative_pair_table, export_innards)", "src/multi_physics/QED/src/lookup_tables.hpp (lookup_1d, lookup_2d: constructors, operator=, read_from_stream_bin)", "src/multi_physics/QED/src/picsar_vector.hpp, picsar_array.hpp"]}
{"id": "C157", "title": "An initialised table has contents", "statement": "When an engine reports that a table is initialised, the table has contents: its first coordinate can be read.", "quantifier": "all histories", "why_tests_cant": "For all histories, moves and innards included.", "anchors": ["src/multi_physics/QED/src/breit_wheeler_engine.hpp (constructors, operator=, compute_dN_dt_lookup_table, compute_cumulative_pair_table, read_dN_dt_table, read_cumulative_pair_table, export_innards)", "src/multi_physics/QED/src/lookup_tables.hpp (lookup_1d, lookup_2d: constructors, operator=, read_from_stream_bin)", "src/multi_physics/QED/src/picsar_vector.hpp, picsar_array.hpp"]}
{"id": "C158", "title": "An engine that was moved from can be used again", "statement": "After a move, tables can be put in the source engine again, by computing them or by reading them from a file.", "quantifier": "all histories that end in a move, all tables", "why_tests_cant": "For all histories and tables.", "anchors": ["src/multi_physics/QED/src/breit_wheeler_engine.hpp (constructors, operator=, compute_dN_dt_lookup_table, compute_cumulative_pair_table, read_dN_dt_table, read_cumulative_pair_table, export_innards)", "src/multi_physics/QED/src/lookup_tables.hpp (lookup_1d, lookup_2d: constructors, operator=, read_from_stream_bin)", "src/multi_physics/QED/src/picsar_vector.hpp, picsar_array.hpp"]}
{"id": "C159", "title": "New tiles keep the particles", "statement": "Changing the split of a subdomain into tiles keeps every particle of every species with all its properties, puts each particle of the subdomain in the tile whose limits contain it, and the new tiles cover the subdomain without overlap.", "quantifier": "all numbers of species, distributions of particles over old tiles, subdomains, numbers of threads, two and three dimensions", "why_tests_cant": "For all states of the particles and all geometries; particles outside of the subdomain included.", "anchors": ["src/housekeeping/load_balancing.F90 (create_new_tile_split), src/parallelization/tiling/tiling.F90 (set_tile_split_for_species, init_tile_arrays_for_species)"]}
{"id": "C160", "title": "New tiles keep the properties of species", "statement": "Changing the split into tiles leaves charge, mass, initial conditions, flags (antenna, frozen, deposits current), sorting parameters and name of each species as they were.", "quantifier": "all states and species", "why_tests_cant": "For all combinations of flags and all states.", "anchors": ["src/housekeeping/load_balancing.F90 (create_new_tile_split), src/parallelization/tiling/tiling.F90 (set_tile_split_for_species, init_tile_arrays_for_species)"]}
{"id": "C161", "title": "New tiles keep the books", "statement": "After a change of the tiles the particle counter of each species is its number of particles, and every tile has arrays for its fields.", "quantifier": "all states, and all values of variables that are not initialised", "why_tests_cant": "The outcome depends on undefined values.", "anchors": ["src/housekeeping/load_balancing.F90 (create_new_tile_split), src/parallelization/tiling/tiling.F90 (set_tile_split_for_species, init_tile_arrays_for_species)"]}
{"id": "C162", "title": "Loads of planes of cells", "statement": "For load balancing, the load of each plane of cells along an axis is the number of particles of all processes in it times the time per particle plus the number of its cells times the time per cell; it is computed without access outside of arrays exactly when all particles lie in the grid.", "quantifier": "all grids, axes, particle positions, numbers of processes", "why_tests_cant": "For all real positions and all distributions over processes.", "anchors": ["src/housekeeping/load_balancing.F90 (get_projected_load_on_x, get_projected_load_on_y, get_projected_load_on_z)"]}
{"id": "C163", "title": "Loads add up to the measured time", "statement": "The time per particle is the time of the processes with particles over the number of particles; along each axis the loads add up to the same total, which is the time measured on all processes.", "quantifier": "all particle positions, times, numbers of particles and processes, all orders of the reduction, processors with and without subnormal numbers", "why_tests_cant": "For all orders of the reduction and all counts; the result depends on the floating-point mode of the processor.", "anchors": ["src/housekeeping/load_balancing.F90 (get_projected_load_on_x, get_projected_load_on_y, get_projected_load_on_z)", "src/housekeeping/load_balancing.F90 (compute_time_per_part, compute_time_per_cell)"]}
{"id": "C164", "title": "The new split is a split", "statement": "The ranges of cells that load balancing computes from particles and times assign every cell of the grid to exactly one process along each axis.", "quantifier": "all grids, particles, times per particle and per cell, numbers of processes, two and three dimensions", "why_tests_cant": "For all real loads.", "anchors": ["src/housekeeping/load_balancing.F90 (compute_new_split, compute_new_split_2D, balance_in_dir)", "src/housekeeping/load_balancing.F90 (get_projected_load_on_x, get_projected_load_on_y, get_projected_load_on_z)"]}
{"id": "C165", "title": "Particles follow the new split", "statement": "After load balancing has changed the subdomains, the exchange of particles leaves every process with exactly the particles of all processes that are inside its new limits, in the tiles they belong to.", "quantifier": "all old and new splits of the domain, numbers of processes, species, tiles, particle positions, orders of the communication, two and three dimensions", "why_tests_cant": "For all splits, real positions and interleavings of the processes.", "anchors": ["src/housekeeping/load_balancing.F90 (remap_particles, remap_particles_2D)"]}
{"id": "C166", "title": "Changing the split loses no particle", "statement": "The exchange of particles after a change of the split loses, duplicates and alters no particle, keeps the particle counters right, and accesses no memory out of bounds.", "quantifier": "all old and new splits, numbers of processes, species, tiles, particles, orders of the communication, and values of variables set earlier", "why_tests_cant": "For all histories of the number of particles and all interleavings.", "anchors": ["src/housekeeping/load_balancing.F90 (remap_particles, remap_particles_2D)", "src/modules/modules.F90 (npart_local)"]}
{"id": "C167", "title": "The exchange of particles ends", "statement": "In the exchange of particles after a change of the split a process expects a message from another exactly if that one sends it, no order of events leads to a deadlock or leaves a message behind, and the destination of every particle is found.", "quantifier": "all old and new limits of all processes, all schedules", "why_tests_cant": "For all interleavings and all splits.", "anchors": ["src/housekeeping/load_balancing.F90 (remap_particles, remap_particles_2D)", "src/housekeeping/load_balancing.F90 (get_3Dintersection, get_2Dintersection)"]}
{"id": "C168", "title": "Storage of particles in two dimensions", "statement": "In two dimensions, too, adding particles and removing them loses, duplicates and alters no particle: after any history a tile holds the particles added and not removed, with all their properties, and no memory is accessed out of bounds.", "quantifier": "all histories of additions and removals, capacities, numbers of particle properties, particle values", "why_tests_cant": "For all histories and all particle values.", "anchors": ["src/parallelization/tiling/tiling.F90 (add_particle_at_tile_2d, rm_particle_at_tile_2d, py_add_particles_to_species)"]}
{"id": "C169", "title": "Particles reach the neighbour in two dimensions", "statement": "In two dimensions the particles that leave a process in one direction arrive at the neighbour: each species there gains exactly the particles of that species that were sent, with all their properties, in the tiles they belong to, and no undefined element of the buffers is used.", "quantifier": "all numbers of species, particles, tiles, particle properties, buffer sizes, particle values", "why_tests_cant": "For all sizes of messages and all particle values.", "anchors": ["src/boundary_conditions/particle_boundaries.F90 (particle_bcs_mpi_non_blocking_2d)", "src/parallelization/tiling/tiling.F90 (add_particle_to_species_2d)"]}
{"id": "C170", "title": "Scripts get the values of every particle", "statement": "A script that asks for the number of particles of a species and for their positions, momenta, fields or further properties gets the value of every particle exactly once, in the same order for all quantities, so that the entries with the same index belong to the same particle; no memory is accessed out of bounds.", "quantifier": "all species, numbers of tiles and particles, quantities, histories of the tiles", "why_tests_cant": "For all distributions of particles over tiles and all histories.", "anchors": ["src/diags/diags.F90 (get_local_number_of_particles_from_species, getquantity, getquantity_pid)"]}
{"id": "C171", "title": "Particles that cross a moving plane are selected", "statement": "The test against a moving plane marks and counts exactly the particles that come through the plane in the direction of its normal during the step, and the selection of any quantity with these marks gives its values for exactly these particles, in order, within the array of that size.", "quantifier": "all numbers of particles, positions, planes and their motion, contents of the caller's arrays", "why_tests_cant": "For all real positions and all histories of the arrays.", "anchors": ["src/diags/diags.F90 (load_test_plane, select_quantity)"]}
{"id": "C172", "title": "Captured quantities belong to the moment on the plane", "statement": "If no marks are left from before, then for every particle that crosses the plane the captured value is the quantity, varying linearly over the step, at the one time at which the particle is on the moving plane; nothing is divided by zero.", "quantifier": "all numbers of particles, positions, planes and their motion, quantities", "why_tests_cant": "For all real positions and quantities.", "anchors": ["src/diags/diags.F90 (interpolate_quantity, load_test_plane, select_quantity)"]}
{"id": "C173", "title": "Currents are summed with persistent requests as with the others", "statement": "With persistent communication of the currents, in every time step, under every schedule, the summation ends without error and every copy of a grid node on every process holds the sum of the contributions of all processes to that node, each counted once, whatever was deposited in this and in earlier steps.", "quantifier": "all decompositions, boundary conditions, components, numbers of time steps, deposited currents, schedules, storage of the arrays", "why_tests_cant": "For all schedules and all histories of calls; the requests keep state between the calls.", "anchors": ["src/boundary_conditions/field_boundaries.F90 (summation_bcs_persistent_jx, summation_bcs_persistent_jy, summation_bcs_persistent_jz, current_bcs)", "src/submain.F90 (step)"]}
{"id": "C174", "title": "The number of persistent requests stays bounded", "statement": "However many time steps a program or script performs with persistent communication of the currents, the number of requests that exist on a process does not grow with the number of steps.", "quantifier": "all decompositions, numbers of time steps, schedules, time loops of the program and of scripts", "why_tests_cant": "For all lengths of the run.", "anchors": ["src/boundary_conditions/field_boundaries.F90 (summation_bcs_persistent_jx, summation_bcs_persistent_jy, summation_bcs_persistent_jz, current_bcs)", "examples/example_scripts_python/test.py (steppy)"]}
{"id": "C175", "title": "Two-dimensional exchange and summation keep the plane consistent", "statement": "In two-dimensional simulations with non-blocking communication, under every schedule, the summation of the currents ends with every copy of a node on every process holding the sum of the contributions of all processes to that node of the plane, each counted once, and the exchange of fields ends with every guard cell holding the value of the owner; nothing is mixed across planes, and nothing is added or copied across an absorbing boundary.", "quantifier": "all decompositions along x and z, boundary conditions, numbers of guard cells smaller than the subdomains, contents of the arrays, schedules", "why_tests_cant": "For all schedules, decompositions and contents.", "anchors": ["src/boundary_conditions/field_boundaries.F90 (summation_bcs_nonblocking, exchange_mpi_3d_grid_array_with_guards_nonblocking, field_bc, current_bcs)"]}
{"id": "C176", "title": "Two-dimensional summation with blocking communication", "statement": "In two-dimensional simulations with blocking communication (the default), under every schedule, the summation of the currents ends with every copy of a node of the plane on every process holding the sum of the contributions of all processes to that node, each counted once; nothing is added across an absorbing boundary.", "quantifier": "all decompositions along x and z, boundary conditions, numbers of guard cells smaller than the subdomains, contents of the arrays, schedules", "why_tests_cant": "For all schedules, decompositions and contents.", "anchors": ["src/boundary_conditions/field_boundaries.F90 (summation_bcs, exchange_mpi_3d_grid_array_with_guards, field_bc, current_bcs)"]}
{"id": "C177", "title": "Threaded exchange between tiles in two dimensions", "statement": "In two-dimensional simulations the exchange of particles between tiles gives the same result with several OpenMP threads, under every schedule, as with one: provided particles move at most to an adjacent tile, two threads never access the same tile at the same time, nothing faults, all threads finish, and afterwards every particle of the domain is in the tile in which it lies, with all its properties, none lost or duplicated.", "quantifier": "all tilings with one tile in y, numbers of particles, positions at most one tile away, numbers of threads and schedules", "why_tests_cant": "For all interleavings of the threads and all contents of the tiles; a race shows itself only in rare schedules.", "anchors": ["src/boundary_conditions/particle_boundaries.F90 (particle_bcs_tiles_2d_openmp, particle_bcs_tiles_2d)", "src/parallelization/tiling/tiling.F90 (rm_particle_at_tile_2d, add_particle_at_tile_2d)"]}
{"id": "C178", "title": "Remapping the fields of a plane moves every node to its new owner", "statement": "When the fields of a two-dimensional simulation are remapped from an old to a new decomposition, under every schedule all processes finish, no message is left over, every node of every new subdomain receives the value that an old owner held for the same global node, and guard cells and old arrays are untouched.", "quantifier": "all numbers of processes and components, all pairs of decompositions of the plane of which the old covers the new, all contents, all schedules", "why_tests_cant": "For all pairs of decompositions and all orders of messages.", "anchors": ["src/housekeeping/load_balancing.F90 (get_2Dintersection, remap_em_2Dfields, mpi_remap_2D_field_component)"]}
{"id": "C179", "title": "The kinetic energy in the temporal diagnostics is that of the species", "statement": "The value that a process contributes to the temporal diagnostic of the kinetic energy of a species is the sum of weight times m c^2 (gamma - 1) over the particles of all its tiles, with m the mass of the species.", "quantifier": "all species, masses, tilings, numbers of particles, momenta and weights", "why_tests_cant": "For all numbers of particles and tiles (the loop works in blocks of 16), momenta and masses.", "anchors": ["src/ios/simple_io.F90 (output_temporal_diagnostics)", "src/diags/diags.F90 (get_loc_kinetic_energy)"]}
{"id": "C180", "title": "The field energies in the temporal diagnostics of a plane are those of the plane", "statement": "In two-dimensional simulations the value that a process contributes to the temporal diagnostic of the energy of a field component is the energy of this component on its part of the plane that the solver advances.", "quantifier": "all numbers of cells and guard cells, all fields", "why_tests_cant": "For all fields and sizes of the arrays.", "anchors": ["src/ios/simple_io.F90 (output_temporal_diagnostics)", "src/diags/diags.F90 (get_loc_field_energy_2d)", "src/parallelization/mpi/mpi_routines.F90 (allocate_grid_quantities, mpi_initialise)"]}
{"id": "C181", "title": "The norms in the temporal diagnostics of a plane are those of the plane", "statement": "In two-dimensional simulations the temporal diagnostic of the norm of the charge density (or of the divergence of E) is the square root of the sum of its squares over the nodes of the plane on which it is computed.", "quantifier": "all numbers of processes, cells and guard cells, all values", "why_tests_cant": "For all values and sizes of the arrays.", "anchors": ["src/ios/simple_io.F90 (output_temporal_diagnostics)", "src/diags/diags.F90 (get_loc_norm_2)", "src/parallelization/mpi/mpi_routines.F90 (allocate_grid_quantities, mpi_initialise)"]}
{"id": "C182", "title": "With one distributed Fourier transform the domain of each process is its slab", "statement": "When one Fourier transform is distributed over all processes, the planes of the grid that a process owns after start-up are the planes of its slab in the transform, whatever slabs the library chooses and whatever the topology; together they hold every plane once.", "quantifier": "all numbers of processes and planes, all slabs, all topologies", "why_tests_cant": "For all numbers of planes and processes, including empty slabs, and all assignments of coordinates to ranks.", "anchors": ["src/parallelization/mpi/mpi_routines.F90 (adjust_grid_mpi_global, mpi_initialise, setup_communicator)"]}
{"id": "C183", "title": "The flags of reallocated tiles can be relied on", "statement": "After pointers to the particle arrays of a tile have been taken and its reallocation flag has been cleared, and any number of particles has been added or removed: if the flag is not set, the pointers still give the current arrays with all particles; if it is set, the arrays have moved and the pointers must be taken again.", "quantifier": "all tiles and all histories of additions and removals", "why_tests_cant": "For all histories: arrays move when they are full and also when they become sparse.", "anchors": ["src/parallelization/tiling/tiling.F90 (add_particle_at_tile, rm_particle_at_tile, resize_particle_arrays, point_to_tile, get_are_tiles_reallocated, set_are_tiles_reallocated)"]}
{"id": "C184", "title": "Particles added through the interface land in their tiles", "statement": "Adding arrays of particles to a species from Python stores each particle in the tile that its position lies in, after the particles already there and in the order given, changes no other particle, and increases the particle count of the species by the number given; positions that belong to no tile are refused.", "quantifier": "all geometries and tile splits, all contents of the tiles and all lists of particles", "why_tests_cant": "For all positions, including those at and beyond the limits of the subdomain, and all fillings of the tile arrays, which are enlarged on the way.", "anchors": ["src/parallelization/tiling/tiling.F90 (py_add_particles_to_species, add_particle_to_species, add_particle_at_tile)"]}
{"id": "C185", "title": "The memory of the particle arrays is reported exactly and does not leak", "statement": "The reported memory of the particle tiles is eight bytes for each of the 13 quantities and the further properties, for every place of the arrays of every allocated tile, and never less than the stored particles need. After any number of additions and removals on a new tile, the tile has at most as many places as it started with, or at most two and a half times its current number of particles plus two. The same holds for every tile of a species whose particles are also exchanged between tiles, so the memory of a species stays proportional to its number of particles and tiles.", "quantifier": "all species and contents of tiles; all valid histories of additions and removals", "why_tests_cant": "For all histories: the arrays grow when full and are halved at most once for each removal, so the bound has to be kept by every step.", "anchors": ["src/parallelization/tiling/tiling.F90 (get_local_tile_mem, add_particle_at_tile, rm_particle_at_tile, resize_particle_arrays)"]}
