{
 "claims": [
  {
   "property": "C01",
   "status": "proved",
   "theorems": [
    "Picsar.Props.C01_upper_bound",
    "Picsar.Props.C01_upper_bound_in_range"
   ],
   "note": ""
  },
  {
   "property": "C02",
   "status": "proved",
   "theorems": [
    "Picsar.Props.C02_lin_spaced",
    "Picsar.Props.C02_lin_spaced_rejects"
   ],
   "note": ""
  },
  {
   "property": "C03",
   "status": "partial",
   "theorems": [
    "Picsar.Props.C03_log_spaced_partial",
    "Picsar.Props.C03_log_spaced_rejects",
    "Picsar.Props.C03_log_spaced_refuted"
   ],
   "note": "Holds for min>0 (C03_log_spaced_partial, and the empty result for rejected requests). For min=0 the code accepts the request and returns NaN coordinates: C03_log_spaced_refuted."
  },
  {
   "property": "C04",
   "status": "partial",
   "theorems": [
    "Picsar.Props.C04_log_lin_log_partial",
    "Picsar.Props.C04_log_lin_log_refuted",
    "Picsar.Props.C04_log_lin_log_small_refuted"
   ],
   "note": "Holds for size 2, 3 and every size>=6 with size mod 3 /= 2. False of the code for sizes 0,1,4 and every size 3k+2>=5 (size_t wrap): the two refuted theorems."
  },
  {
   "property": "C05",
   "status": "proved",
   "theorems": [
    "Picsar.Props.C05_poisson",
    "Picsar.Props.C05_poisson_monotone",
    "Picsar.Props.C05_poisson_zero"
   ],
   "note": ""
  },
  {
   "property": "C06",
   "status": "proved",
   "theorems": [
    "Picsar.Props.C06_equispaced_interp",
    "Picsar.Props.C06_interp_between",
    "Picsar.Props.C06_equispaced_node"
   ],
   "note": ""
  },
  {
   "property": "C07",
   "status": "partial",
   "theorems": [
    "Picsar.Props.C07_closed_range_partial",
    "Picsar.Props.C07_closed_range_refuted",
    "Picsar.Props.C07_closed_range_2d_refuted"
   ],
   "note": "In-bounds on [front,back) and for the general routine on the closed range except back; at the last grid point both 1-D routines read one past the end (two refuted theorems)."
  },
  {
   "property": "C08",
   "status": "proved",
   "theorems": [
    "Picsar.Props.C08_interp_linear",
    "Picsar.Props.C08_interp_linear_node",
    "Picsar.Props.C08_agrees_with_equispaced"
   ],
   "note": ""
  },
  {
   "property": "C09",
   "status": "proved",
   "theorems": [
    "Picsar.Props.C09_interp_2d",
    "Picsar.Props.C09_interp_2d_equispaced",
    "Picsar.Props.C09_weights",
    "Picsar.Props.C09_affine_exact",
    "Picsar.Props.C09_node"
   ],
   "note": ""
  },
  {
   "property": "C10",
   "status": "proved",
   "theorems": [
    "Picsar.Props.C10_first_equispaced",
    "Picsar.Props.C10_first_search"
   ],
   "note": ""
  },
  {
   "property": "C11",
   "status": "proved",
   "theorems": [
    "Picsar.Props.C11_row_major_bijection",
    "Picsar.Props.C11_data_at_coords"
   ],
   "note": ""
  },
  {
   "property": "C12",
   "status": "proved",
   "theorems": [
    "Picsar.Props.C12_roundtrip_1d",
    "Picsar.Props.C12_roundtrip_2d",
    "Picsar.Props.C12_roundtrip_sequence",
    "Picsar.Props.C12_engine_files"
   ],
   "note": ""
  },
  {
   "property": "C13",
   "status": "partial",
   "theorems": [
    "Picsar.Props.C13_truncation_visible_in_stream_partial",
    "Picsar.Props.C13_truncated_file_refuted"
   ],
   "note": "Truncation leaves the stream failed or faults on an indeterminate header, but the code never checks: for every cut inside the payload the table reports itself initialised with indeterminate data (refuted)."
  },
  {
   "property": "C14",
   "status": "proved",
   "theorems": [
    "Picsar.Props.C14_memory_safe",
    "Picsar.Props.C14_no_double_free_no_use_after_free"
   ],
   "note": ""
  },
  {
   "property": "C15",
   "status": "partial",
   "theorems": [
    "Picsar.Props.C15_copy_ctor_partial",
    "Picsar.Props.C15_assign_copy_partial",
    "Picsar.Props.C15_self_assign_refuted"
   ],
   "note": "Copy construction and copy assignment between different vectors proved; self-assignment replaces all elements by indeterminate values (refuted)."
  },
  {
   "property": "C16",
   "status": "proved",
   "theorems": [
    "Picsar.Props.C16_resize",
    "Picsar.Props.C16_resize_refused"
   ],
   "note": ""
  },
  {
   "property": "C17",
   "status": "partial",
   "theorems": [
    "Picsar.Props.C17_no_leak_partial",
    "Picsar.Props.C17_leak_refuted"
   ],
   "note": "Proved for histories that never assign to a vector that owns memory; assignment to an owning vector leaks its block (refuted)."
  },
  {
   "property": "C18",
   "status": "partial",
   "theorems": [
    "Picsar.Props.C18_front_back_partial",
    "Picsar.Props.C18_back_nonconst_refuted"
   ],
   "note": "front() and const back() proved; non-const back() returns the first element (refuted)."
  },
  {
   "property": "C19",
   "status": "partial",
   "theorems": [
    "Picsar.Props.C19_moved_from_partial",
    "Picsar.Props.C19_moved_from_resize_refuted"
   ],
   "note": "Destination owns the elements, source empty, destructible and assignable; resize of a moved-from vector always throws (refuted)."
  },
  {
   "property": "C20",
   "status": "proved",
   "theorems": [
    "Picsar.Props.C20_depth_nonneg",
    "Picsar.Props.C20_depth_strict_mono",
    "Picsar.Props.C20_depth_exponential"
   ],
   "note": ""
  },
  {
   "property": "C21",
   "status": "proved",
   "theorems": [
    "Picsar.Props.C21_evolve_photon",
    "Picsar.Props.C21_evolve_lepton"
   ],
   "note": ""
  },
  {
   "property": "C22",
   "status": "proved",
   "theorems": [
    "Picsar.Props.C22_subdivision_photon",
    "Picsar.Props.C22_subdivision_lepton",
    "Picsar.Props.C22_subdivision_independent"
   ],
   "note": ""
  },
  {
   "property": "C23",
   "status": "proved",
   "theorems": [
    "Picsar.Props.C23_below_threshold_photon",
    "Picsar.Props.C23_below_threshold_lepton"
   ],
   "note": ""
  },
  {
   "property": "C24",
   "status": "partial",
   "theorems": [
    "Picsar.Props.C24_pair",
    "Picsar.Props.C24_generate_partial",
    "Picsar.Props.C24_generate_refuted",
    "Picsar.Props.C24_zero_chi_refuted",
    "Picsar.Props.C24_generated_table"
   ],
   "note": "Proved for every photon above threshold with chi>0 and every list of draws in [0,1), unless log(chi) is exactly an interior grid point and a draw falls in the first cell: then the stored log(0) gives NaN (C24_generate_refuted). A vanishing chi gives NaN too (C24_zero_chi_refuted). C24_generated_table shows the engine's own table meets the hypotheses."
  },
  {
   "property": "C25",
   "status": "proved",
   "theorems": [
    "Picsar.Props.C25_search",
    "Picsar.Props.C25_fraction"
   ],
   "note": ""
  },
  {
   "property": "C26",
   "status": "proved",
   "theorems": [
    "Picsar.Props.C26_rate_zero",
    "Picsar.Props.C26_rate_pos",
    "Picsar.Props.C26_rate_interp",
    "Picsar.Props.C26_generated_table"
   ],
   "note": ""
  },
  {
   "property": "C27",
   "status": "partial",
   "theorems": [
    "Picsar.Props.C27_emission_partial",
    "Picsar.Props.C27_zero_chi_refuted",
    "Picsar.Props.C27_generated_table"
   ],
   "note": "Proved for a moving lepton with non-zero chi; with chi=0 (no field, or at rest) all momenta become NaN (refuted)."
  },
  {
   "property": "C28",
   "status": "partial",
   "theorems": [
    "Picsar.Props.C28_rate_partial",
    "Picsar.Props.C28_rate_refuted",
    "Picsar.Props.C28_evolve_refuted",
    "Picsar.Props.C28_generated_table"
   ],
   "note": "Proved for chi below the table maximum; for every chi at or above it the lookup reads past the end (two refuted theorems)."
  },
  {
   "property": "C29",
   "status": "proved",
   "theorems": [
    "Picsar.Props.C29_nonneg",
    "Picsar.Props.C29_zero_iff",
    "Picsar.Props.C29_formula",
    "Picsar.Props.C29_invariants",
    "Picsar.Props.C29_plane_wave",
    "Picsar.Props.C29_no_electric_field"
   ],
   "note": ""
  },
  {
   "property": "C30",
   "status": "proved",
   "theorems": [
    "Picsar.Props.C30_single",
    "Picsar.Props.C30_multiple",
    "Picsar.Props.C30_no_rate",
    "Picsar.Props.C30_multiple_none_iff"
   ],
   "note": ""
  },
  {
   "property": "C31",
   "status": "proved",
   "theorems": [
    "Picsar.Props.C31_photon_nonneg",
    "Picsar.Props.C31_lepton_nonneg",
    "Picsar.Props.C31_photon_zero_momentum",
    "Picsar.Props.C31_zero_fields",
    "Picsar.Props.C31_linear_in_fields",
    "Picsar.Props.C31_photon_linear_in_momentum",
    "Picsar.Props.C31_photon_plane_wave",
    "Picsar.Props.C31_lepton_formula",
    "Picsar.Props.C31_photon_components",
    "Picsar.Props.C31_lepton_components"
   ],
   "note": ""
  },
  {
   "property": "C32",
   "status": "proved",
   "theorems": [
    "Picsar.Props.C32_pair_table_any_schedule",
    "Picsar.Props.C32_photon_table_any_schedule",
    "Picsar.Props.C32_single_column_overruns"
   ],
   "note": "Proved for every schedule of the parallel loop. A pair-production table with a single fraction column makes the code write past its row (C32_single_column_overruns, a stated corner case outside the property)."
  },
  {
   "property": "C33",
   "status": "partial",
   "theorems": [
    "Picsar.Props.C33_same_state",
    "Picsar.Props.C33_pair_engine_partial",
    "Picsar.Props.C33_photon_engine_partial",
    "Picsar.Props.C33_flag_refuted",
    "Picsar.Props.C33_evolve_refuted"
   ],
   "note": "A clone built from exported innards of a complete engine behaves identically; an engine exported without tables comes back claiming to have them (two refuted theorems)."
  },
  {
   "property": "C34",
   "status": "proved",
   "theorems": [
    "Picsar.Props.C34_arrays_consistent",
    "Picsar.Props.C34_no_fault"
   ],
   "note": ""
  },
  {
   "property": "C35",
   "status": "proved",
   "theorems": [
    "Picsar.Props.C35_destruction_exact",
    "Picsar.Props.C35_removal_by_index",
    "Picsar.Props.C35_remove_one"
   ],
   "note": ""
  },
  {
   "property": "C36",
   "status": "partial",
   "theorems": [
    "Picsar.Props.C36_register",
    "Picsar.Props.C36_all_in_order",
    "Picsar.Props.C36_apply_one_partial",
    "Picsar.Props.C36_unknown_id_refuted"
   ],
   "note": "Proved for registered ids; an unknown id silently inserts an empty entry that is called later (refuted)."
  },
  {
   "property": "C37",
   "status": "partial",
   "theorems": [
    "Picsar.Props.C37_large_index_refuted",
    "Picsar.Props.C37_small_index_refuted",
    "Picsar.Props.C37_refuted",
    "Picsar.Props.C37_self_partial"
   ],
   "note": "Exchanging two different particles is wrong in the code: for every index i>=3 (C37_large_index_refuted) and already for small indices (C37_small_index_refuted, C37_refuted); swapping a particle with itself works for i<3 (C37_self_partial)."
  },
  {
   "property": "C38",
   "status": "proved",
   "theorems": [
    "Picsar.Props.C38_boris_arrays",
    "Picsar.Props.C38_history"
   ],
   "note": ""
  },
  {
   "property": "C39",
   "status": "proved",
   "theorems": [
    "Picsar.Props.C39_reversible"
   ],
   "note": ""
  },
  {
   "property": "C40",
   "status": "proved",
   "theorems": [
    "Picsar.Props.C40_blocked_equals_plain",
    "Picsar.Props.C40_each_particle_once",
    "Picsar.Props.C40_split_equals_plain"
   ],
   "note": ""
  },
  {
   "property": "C41",
   "status": "proved",
   "theorems": [
    "Picsar.Props.C41_slower_than_light_3d",
    "Picsar.Props.C41_slower_than_light_2d",
    "Picsar.Props.C41_all_pushers"
   ],
   "note": ""
  },
  {
   "property": "C42",
   "status": "proved",
   "theorems": [
    "Picsar.Props.C42_vay_equation",
    "Picsar.Props.C42_vay_force_free"
   ],
   "note": ""
  },
  {
   "property": "C43",
   "status": "partial",
   "theorems": [
    "Picsar.Props.C43_at_rest_partial",
    "Picsar.Props.C43_b08_refuted"
   ],
   "note": "Proved for Boris, split Boris, Vay, split Vay, S09 and Landau-Lifshitz pushers; false of the B08 pusher (0/0)."
  },
  {
   "property": "C44",
   "status": "proved",
   "theorems": [
    "Picsar.Props.C44_yee_3d",
    "Picsar.Props.C44_history",
    "Picsar.Props.C44_ckc_3d",
    "Picsar.Props.C44_ckc_consistent",
    "Picsar.Props.C44_ckc_2d",
    "Picsar.Props.C44_ckc_2d_consistent",
    "Picsar.Props.C44_norder_3d",
    "Picsar.Props.C44_yee_2d",
    "Picsar.Props.C44_yee_rz"
   ],
   "note": "3D Yee (one push and any history), 2D Yee, r-z Yee, Cole-Karkkainen-Cowan 2D/3D (with the solver's own differences) and 3D arbitrary order with truncated stencils, for every execution order of the parallel loops. Real arithmetic. The multimode r-z solver is not modelled."
  },
  {
   "property": "C45",
   "status": "proved",
   "theorems": [
    "Picsar.Props.C45_yee_3d",
    "Picsar.Props.C45_norder_3d",
    "Picsar.Props.C45_yee_2d",
    "Picsar.Props.C45_yee_rz"
   ],
   "note": "3D, 2D, r-z (off and on the axis) and 3D arbitrary order, under the discrete continuity equation of C46."
  },
  {
   "property": "C46",
   "status": "proved",
   "theorems": [
    "Picsar.Props.C46_continuity",
    "Picsar.Props.C46_continuity_deposited",
    "Picsar.Props.C46_fast_particle_faults"
   ],
   "note": "Scalar routines of order 1, 2, 3 (one parametrised model); the general-order and vectorised variants are not modelled. C46_fast_particle_faults shows the hypothesis is needed."
  },
  {
   "property": "C47",
   "status": "proved",
   "theorems": [
    "Picsar.Props.C47_gauss_law"
   ],
   "note": "Interior of one subdomain, Yee solver of order 2, particle states after the push as inputs; tiles and exchanges are separate properties."
  },
  {
   "property": "C48",
   "status": "proved",
   "theorems": [
    "Picsar.Props.C48_deposits_density",
    "Picsar.Props.C48_order_irrelevant",
    "Picsar.Props.C48_sign_and_support",
    "Picsar.Props.C48_total_charge"
   ],
   "note": "Scalar routines of order 1, 2, 3; vectorised variants not modelled."
  },
  {
   "property": "C49",
   "status": "proved",
   "theorems": [
    "Picsar.Props.C49_exchange_blocking",
    "Picsar.Props.C49_exchange_nonblocking",
    "Picsar.Props.C49_owner",
    "Picsar.Props.C49_terminates",
    "Picsar.Props.C49_decomposition"
   ],
   "note": ""
  },
  {
   "property": "C50",
   "status": "partial",
   "theorems": [
    "Picsar.Props.C50_summation_nonblocking",
    "Picsar.Props.C50_summation_blocking_partial",
    "Picsar.Props.C50_summation_blocking_refuted"
   ],
   "note": "Proved for the nonblocking version (the default). The blocking version wraps around absorbing boundaries (refuted) and is proved for periodic directions."
  },
  {
   "property": "C51",
   "status": "partial",
   "theorems": [
    "Picsar.Props.C51_transfer_partial",
    "Picsar.Props.C51_short_transfer_refuted",
    "Picsar.Props.C51_overrun_refuted"
   ],
   "note": "False as stated (two refuted theorems: the datatypes cached by the first call are reused for arrays with other guard widths); proved when the first exchanged array had the same extents."
  },
  {
   "property": "C52",
   "status": "proved",
   "theorems": [
    "Picsar.Props.C52_split_partitions",
    "Picsar.Props.C52_extents_partition"
   ],
   "note": ""
  },
  {
   "property": "C53",
   "status": "proved",
   "theorems": [
    "Picsar.Props.C53_ordered",
    "Picsar.Props.C53_cartesian",
    "Picsar.Props.C53_topologies_agree"
   ],
   "note": ""
  },
  {
   "property": "C54",
   "status": "proved",
   "theorems": [
    "Picsar.Props.C54_random_topology"
   ],
   "note": ""
  },
  {
   "property": "C55",
   "status": "partial",
   "theorems": [
    "Picsar.Props.C55_pass_reflect_wrap_partial",
    "Picsar.Props.C55_absorbing_partial",
    "Picsar.Props.C55_reinjecting_partial",
    "Picsar.Props.C55_combined_reflecting_refuted",
    "Picsar.Props.C55_combined_tile_refuted",
    "Picsar.Props.C55_corner_refuted",
    "Picsar.Props.C55_far_reflecting_refuted",
    "Picsar.Props.C55_periodic_lands"
   ],
   "note": "Scan of one particle in all four versions (blocking, non-blocking, non-blocking 2-D, combined), real arithmetic. Proved for every combination of walls: pass/reflect/wrap, absorption, re-injection, and that a wrapped particle lands inside the limits of the process it is sent to, for every decomposition. False of the code, and refuted: combined and 2-D versions treat reflecting walls as periodic; the combined version ignores a particle within half a cell behind the wall when there is one tile; blocking and non-blocking versions disagree at an edge between an absorbing and a re-injecting wall; reflection moves by one cell only."
  },
  {
   "property": "C56",
   "status": "partial",
   "theorems": [
    "Picsar.Props.C56_lower_face_partial",
    "Picsar.Props.C56_upper_face_refuted"
   ],
   "note": "False of the code at the upper face for every decomposition with default offsets; the lower face is recognised by exactly the processes at the lower end and absorbs."
  },
  {
   "property": "C57",
   "status": "proved",
   "theorems": [
    "Picsar.Props.C57_non_blocking",
    "Picsar.Props.C57_blocking",
    "Picsar.Props.C57_terminates",
    "Picsar.Props.C57_directions",
    "Picsar.Props.C57_conserved",
    "Picsar.Props.C57_neighbours",
    "Picsar.Props.C57_land"
   ],
   "note": "3-D blocking (26 sendrecv pairs per species) and non-blocking (sizes, then one message per distinct neighbour) versions as asynchronous message-passing programs: every schedule, every number of species and particles, neighbours may coincide with each other or with the process. The buffers are modelled as flat arrays of reals with stride 8+npid, the removal loop and the receive bookkeeping included. Hypotheses: mutual neighbours (C57_neighbours: holds for every processor grid) and particles land in a tile of the receiver (C57_land, with C55_periodic_lands for wrapped ones). The 2-D copy and the combined version are not modelled."
  },
  {
   "property": "C58",
   "status": "proved",
   "theorems": [
    "Picsar.Props.C58_nodes",
    "Picsar.Props.C58_zero_tiles",
    "Picsar.Props.C58_positions",
    "Picsar.Props.C58_limits"
   ],
   "note": "For every grid size and tile count (the code's clamp to one tile included): node counts, contiguity, cover, and the index computed for a position is the one tile containing it. A tile count of zero divides by zero (C58_zero_tiles)."
  },
  {
   "property": "C59",
   "status": "proved",
   "theorems": [
    "Picsar.Props.C59_history",
    "Picsar.Props.C59_operations",
    "Picsar.Props.C59_species"
   ],
   "note": "One tile under every history of additions and removals (growth and shrink included), and a whole species under additions, removals and tile exchanges, with its particle count."
  },
  {
   "property": "C60",
   "status": "proved",
   "theorems": [
    "Picsar.Props.C60_masked_removal"
   ],
   "note": "Every population and every mask; the loop runs from the end, so the swap of the last particle never skips one."
  },
  {
   "property": "C61",
   "status": "partial",
   "theorems": [
    "Picsar.Props.C61_group_partial",
    "Picsar.Props.C61_group_refuted"
   ],
   "note": "Refuted: the capacity grows only once, to twice its value plus one, so a large group is written past the arrays. Partial: holds when the group fits after that growth."
  },
  {
   "property": "C62",
   "status": "proved",
   "theorems": [
    "Picsar.Props.C62_tile_exchange",
    "Picsar.Props.C62_tile_exchange_2d"
   ],
   "note": "3-D and 2-D sequential exchange, particles moving any distance. The domain of the routine is the particle domain of the process."
  },
  {
   "property": "C63",
   "status": "proved",
   "theorems": [
    "Picsar.Props.C63_no_conflict",
    "Picsar.Props.C63_same_as_sequential"
   ],
   "note": "Any interleaving of the threads of each of the 27 parallel loops, with one step per memory-relevant action (look at a particle, remove it, add it to another tile): two threads that are both inside a loop never touch the same tile, and every complete run ends in the state of the sequential exchange. Particles are assumed to move by at most one tile (the property's hypothesis)."
  },
  {
   "property": "C64",
   "status": "partial",
   "theorems": [
    "Picsar.Props.C64_one_thread_partial",
    "Picsar.Props.C64_lost_update_refuted"
   ],
   "note": "False of the code: the directive is spelt `!OMP CRITICAL` and is a comment. Refuted for every pair of same-colour border tiles with particles for the same direction; partial: with one thread the sizes are exact and no write goes past a buffer."
  },
  {
   "property": "C65",
   "status": "partial",
   "theorems": [
    "Picsar.Props.C65_sort_3d_partial",
    "Picsar.Props.C65_columns_refuted",
    "Picsar.Props.C65_shift_refuted",
    "Picsar.Props.C65_sort_2d_partial"
   ],
   "note": "3-D and 2-D counting sort proved to be a stable cell-ordered rearrangement of position, momentum, gamma and weight with no out-of-range access, for any number of particles in the sorting box. Refuted: with npid=3 the remaining pid columns are not permuted (C65_columns_refuted); a positive sorting shift makes particles of the tile index bin 0 (C65_shift_refuted)."
  },
  {
   "property": "C66",
   "status": "partial",
   "theorems": [
    "Picsar.Props.C66_contiguous_partial",
    "Picsar.Props.C66_split_partial",
    "Picsar.Props.C66_beyond_end_refuted",
    "Picsar.Props.C66_misses_last_cell_refuted"
   ],
   "note": "Proved: the chunks are contiguous from 0, and cover the whole range when the greedy scan does not run out of cells. Refuted: three processes and a load concentrated in the last cell get limits beyond the end; a zero load in the last cell leaves it without owner."
  },
  {
   "property": "C67",
   "status": "proved",
   "theorems": [
    "Picsar.Props.C67_interval_search",
    "Picsar.Props.C67_rank_search"
   ],
   "note": "Both searches, for lists of every length; includes the -1 answer for absent keys."
  },
  {
   "property": "C68",
   "status": "partial",
   "theorems": [
    "Picsar.Props.C68_remap",
    "Picsar.Props.C68_global_field",
    "Picsar.Props.C68_terminates",
    "Picsar.Props.C68_lists_match",
    "Picsar.Props.C68_limits_table",
    "Picsar.Props.C68_limits_table_refuted"
   ],
   "note": "3-D field remap on any number of processes and components under every schedule: values, left-over messages, liveness, matching lists. The self copy is modelled as a message to itself. The limits table is refuted for non-Cartesian communicators with npy > npx (consequence of C69)."
  },
  {
   "property": "C69",
   "status": "partial",
   "theorems": [
    "Picsar.Props.C69_distinct_ranks_partial",
    "Picsar.Props.C69_cartesian",
    "Picsar.Props.C69_collision_refuted"
   ],
   "note": "Proved with a Cartesian communicator and when npx is the largest; refuted otherwise (wrap tests for y and z compare with npx)."
  },
  {
   "property": "C70",
   "status": "partial",
   "theorems": [
    "Picsar.Props.C70_only_last_term",
    "Picsar.Props.C70_product_refuted",
    "Picsar.Props.C70_product_partial"
   ],
   "note": "Refuted: the result is overwritten in the inner loop; only the last term of the product survives. Partial: correct when the first terms vanish."
  },
  {
   "property": "C71",
   "status": "partial",
   "theorems": [
    "Picsar.Props.C71_bounds",
    "Picsar.Props.C71_partition",
    "Picsar.Props.C71_particles",
    "Picsar.Props.C71_index",
    "Picsar.Props.C71_boundary_conditions",
    "Picsar.Props.C71_process_tables_refuted"
   ],
   "note": "pxr_move_sim_boundaries for any number of calls and any displacement: global and local bounds, tile bounds and particle domains move together, the local domains still partition the moved domain, node indices of moved particles are unchanged, and the boundary conditions commute with the move. Refuted for the per-process tables x_grid_mins/x_grid_maxs and the axis arrays, which are not moved."
  },
  {
   "property": "C72",
   "status": "partial",
   "theorems": [
    "Picsar.Props.C72_factors",
    "Picsar.Props.C72_range",
    "Picsar.Props.C72_layers",
    "Picsar.Props.C72_contracting",
    "Picsar.Props.C72_damping_partial",
    "Picsar.Props.C72_merged_refuted",
    "Picsar.Props.C72_merged_bound_partial",
    "Picsar.Props.C72_thick_layer_refuted"
   ],
   "note": "Damping factors of init_pml_arrays and the split-field damping of damp_e_field/damp_b_field: factors in (0,1], one outside the layers, monotone in depth, every split component contracts in absolute value. Refuted: the merged component (sum of two split parts) can grow under damping; a layer as thick as the local domain with guard cells is written out of bounds. Partial: bound of the merged component by the split parts."
  },
  {
   "property": "C73",
   "status": "partial",
   "theorems": [
    "Picsar.Props.C73_em_energy",
    "Picsar.Props.C73_em_total",
    "Picsar.Props.C73_field_energy",
    "Picsar.Props.C73_kinetic_partial",
    "Picsar.Props.C73_kinetic_total_partial",
    "Picsar.Props.C73_antenna_refuted",
    "Picsar.Props.C73_get_kinetic_refuted",
    "Picsar.Props.C73_get_kinetic_partial"
   ],
   "note": "EM energy: exact value, sign, vanishing, and reduction over every decomposition of C52 in three directions. Kinetic energy: proved when no antenna species holds particles; refuted otherwise (an uninitialised tile energy is added) and for get_kinetic_energy, whose accumulator is never initialised. compute_kin_energy uses nc*dx*dy*dz/nppcell as the weight of each particle, not its stored weight."
  },
  {
   "property": "C74",
   "status": "proved",
   "theorems": [
    "Picsar.Props.C74_gather_splines",
    "Picsar.Props.C74_gather_average",
    "Picsar.Props.C74_no_new_extrema",
    "Picsar.Props.C74_uniform_exact",
    "Picsar.Props.C74_affine_exact",
    "Picsar.Props.C74_algorithms_agree",
    "Picsar.Props.C74_blocks_visit_all"
   ],
   "note": "All 3D algorithms (scalar loops, arbitrary-order loops, unrolled default transcribed statement by statement from the Fortran), orders 1-3, Yee or nodal: gathered = B-spline sum over the array, average with weights summing to one, uniform and affine fields exact. Reals for floating point; SIMD and developer algorithms 3-7 not modelled."
  },
  {
   "property": "C75",
   "status": "proved",
   "theorems": [
    "Picsar.Props.C75_recoil"
   ],
   "note": ""
  },
  {
   "property": "C76",
   "status": "partial",
   "theorems": [
    "Picsar.Props.C76_chi_photon",
    "Picsar.Props.C76_chi_lepton",
    "Picsar.Props.C76_pair_rate",
    "Picsar.Props.C76_emission_rate",
    "Picsar.Props.C76_schwinger_refuted"
   ],
   "note": "Proved for the quantum parameters and for the two rates; refuted for the Schwinger engine, which does not scale the critical field with lambda."
  },
  {
   "property": "C77",
   "status": "proved",
   "theorems": [
    "Picsar.Props.C77_lepton_push",
    "Picsar.Props.C77_magnetic_norm",
    "Picsar.Props.C77_history"
   ],
   "note": ""
  },
  {
   "property": "C78",
   "status": "proved",
   "theorems": [
    "Picsar.Props.C78_lepton_slower_than_light",
    "Picsar.Props.C78_photon_at_light_speed"
   ],
   "note": ""
  },
  {
   "property": "C79",
   "status": "proved",
   "theorems": [
    "Picsar.Props.C79_calc_fields",
    "Picsar.Props.C79_push_positions",
    "Picsar.Props.C79_push_momenta"
   ],
   "note": ""
  },
  {
   "property": "C80",
   "status": "partial",
   "theorems": [
    "Picsar.Props.C80_vay_split",
    "Picsar.Props.C80_boris_refuted",
    "Picsar.Props.C80_boris_partial",
    "Picsar.Props.C80_boris_split_reversible"
   ],
   "note": "Proved for Vay. False for Boris: each half uses tan of a quarter angle, so the two half rotations are not the full rotation (refuted); equality without magnetic field, magnitude conservation and reversibility proved."
  },
  {
   "property": "C81",
   "status": "proved",
   "theorems": [
    "Picsar.Props.C81_friction"
   ],
   "note": ""
  },
  {
   "property": "C82",
   "status": "proved",
   "theorems": [
    "Picsar.Props.C82_cleaning_yee",
    "Picsar.Props.C82_cleaning_ckc"
   ],
   "note": ""
  },
  {
   "property": "C83",
   "status": "partial",
   "theorems": [
    "Picsar.Props.C83_openmp_refuted",
    "Picsar.Props.C83_serial_partial",
    "Picsar.Props.C83_guard_refuted"
   ],
   "note": "False of OpenMP builds for every input (k is PRIVATE and never assigned inside the region) and for guard regions narrower than the stencil (two refuted theorems); proved for serial builds with enough guard cells."
  },
  {
   "property": "C86",
   "status": "partial",
   "theorems": [
    "Picsar.Props.C86_check_refuted",
    "Picsar.Props.C86_check_partial"
   ],
   "note": "Refuted: with 8 grid points, 2 processes and 4 guard cells the check passes and a process has 3 cells. Partial: what the check does guarantee (at least guards - 1 cells)."
  },
  {
   "property": "C91",
   "status": "partial",
   "theorems": [
    "Picsar.Props.C91_gather2_average_partial",
    "Picsar.Props.C91_gather2_uniform_partial",
    "Picsar.Props.C91_gather2_electric_partial",
    "Picsar.Props.C91_full_order_refuted"
   ],
   "note": "Proved for the lowered order (default setting) and for the loop algorithms; refuted for the unrolled 2D routines with l_lower_order_in_v false (orders 1 and 2 drop terms of B, order 3 never writes Ez and Bz)."
  },
  {
   "property": "C84",
   "status": "proved",
   "theorems": [
    "Picsar.Props.C84_deposits_current",
    "Picsar.Props.C84_total_current",
    "Picsar.Props.C84_local",
    "Picsar.Props.C84_order_irrelevant"
   ],
   "note": "Scalar routines of order 1, 2, 3 (the model of C46); closed form per node, total current, locality, order independence. Strict room of (n+1)/2 cells inside the array is assumed, as the splines reach that far. Reals for floating point."
  },
  {
   "property": "C85",
   "status": "partial",
   "theorems": [
    "Picsar.Props.C85_sequential",
    "Picsar.Props.C85_tiling_irrelevant",
    "Picsar.Props.C85_like_direct",
    "Picsar.Props.C85_one_thread_partial",
    "Picsar.Props.C85_row_partial",
    "Picsar.Props.C85_race_refuted",
    "Picsar.Props.C85_guards_suffice",
    "Picsar.Props.C85_default_guards_refuted"
   ],
   "note": "Proved: sequential routine for any tiles, independence of the tiling, equality with the direct deposition, the OpenMP routine on one thread in any order, and on any number of threads for a row of tiles along x. Refuted: with tiles also along y or z the loop over the faces in x adds slabs with transverse guard cells without synchronisation and can lose an update; and with order 3 and the default nxjguards (2, computed before nox is read) a particle makes the deposition write outside the tile arrays. Missing: the vectorised Esirkepov variants and the classical deposition managers (same reduction text)."
  },
  {
   "property": "C92",
   "status": "partial",
   "theorems": [
    "Picsar.Props.C92_one_thread_partial",
    "Picsar.Props.C92_row_partial",
    "Picsar.Props.C92_race_refuted"
   ],
   "note": "Proved on one thread in any order and on any number of threads for a row of tiles along x; refuted with tiles also along y or z (same unsynchronised slabs as C85). Scalar order 1 to 3 deposition."
  },
  {
   "property": "C87",
   "status": "partial",
   "theorems": [
    "Picsar.Props.C87_options_partial",
    "Picsar.Props.C87_options_after_file_partial",
    "Picsar.Props.C87_last_option",
    "Picsar.Props.C87_other_parameters",
    "Picsar.Props.C87_nxpml_refuted",
    "Picsar.Props.C87_shadowed_options"
   ],
   "note": "Proved for every list of options except four keywords. Refuted for these: nxpml, nypml, nzpml are taken for nx, ny, nz, and lvec_fieldgathe for fieldgathe (C87_shadowed_options shows that these are exactly the shadowed keywords). List-directed reading is a parameter of the model, assumed to ignore trailing blanks."
  },
  {
   "property": "C88",
   "status": "partial",
   "theorems": [
    "Picsar.Props.C88_setting_partial",
    "Picsar.Props.C88_species_setting",
    "Picsar.Props.C88_dump_species",
    "Picsar.Props.C88_mpi_buf_size_refuted"
   ],
   "note": "Proved for every section and keyword; refuted for mpi_buf_size in section solver, whose value is never read. Values containing a keyword of the section or a # are excluded (substring search)."
  },
  {
   "property": "C89",
   "status": "partial",
   "theorems": [
    "Picsar.Props.C89_file_partial",
    "Picsar.Props.C89_temporal_last_partial",
    "Picsar.Props.C89_other_parameters",
    "Picsar.Props.C89_last_setting",
    "Picsar.Props.C89_repeated_section_ignored",
    "Picsar.Props.C89_repeated_section_refuted",
    "Picsar.Props.C89_temporal_first_refuted"
   ],
   "note": "Proved for all files whose global sections are not repeated and whose section temporal, if any, is last. Refuted otherwise: end_section is initialised in its declaration (SAVE) so a second section of the same name is ignored; temporal has no end mark and swallows the rest of the file. The species_name line of dumps is covered by C88_dump_species, not by the whole-file theorem."
  },
  {
   "property": "C90",
   "status": "partial",
   "theorems": [
    "Picsar.Props.C90_integer_partial",
    "Picsar.Props.C90_blanks_refuted",
    "Picsar.Props.C90_truncated_refuted"
   ],
   "note": "Proved when the integer ends within ten columns after the equal sign; refuted beyond: read as 0 after ten blanks, truncated otherwise."
  },
  {
   "property": "C93",
   "status": "partial",
   "theorems": [
    "Picsar.Props.C93_objects_partial",
    "Picsar.Props.C93_defaults",
    "Picsar.Props.C93_too_many_refuted"
   ],
   "note": "Proved up to 40 species (same files as C89); refuted beyond: the 41st writes outside species_parray without a check."
  },
  {
   "property": "C94",
   "status": "partial",
   "theorems": [
    "Picsar.Props.C94_comments_partial",
    "Picsar.Props.C94_commented_header_refuted"
   ],
   "note": "Proved for comments inside sections and for any line between sections that does not contain section::; refuted for a commented-out section, whose header is obeyed."
  },
  {
   "property": "C95",
   "status": "proved",
   "theorems": [
    "Picsar.Props.C95_deposits_current",
    "Picsar.Props.C95_unrolled_deposits_current",
    "Picsar.Props.C95_choice_of_routine",
    "Picsar.Props.C95_fast_particle_leaves_arrays",
    "Picsar.Props.C95_deposits_charge",
    "Picsar.Props.C95_deposits_old_charge",
    "Picsar.Props.C95_continuity",
    "Picsar.Props.C95_continuity_as_run",
    "Picsar.Props.C95_totals",
    "Picsar.Props.C95_order_irrelevant"
   ],
   "note": "Esirkepov and charge deposition of esirkepov_2d.F90 and charge_deposition_2d.F90, any order 0-3, x-z and r-z before the volume scaling, the unrolled routines and the choice between them. Flags fixed to the constants the callers pass. The unrolled routines need moves below one cell; two cells or more leave their local arrays (C95_fast_particle_leaves_arrays)."
  },
  {
   "property": "C96",
   "status": "partial",
   "theorems": [
    "Picsar.Props.C96_density_times_volume",
    "Picsar.Props.C96_total_charge",
    "Picsar.Props.C96_corrected_volume_refuted",
    "Picsar.Props.C96_density_off_axis",
    "Picsar.Props.C96_guard_row_on_axis_refuted",
    "Picsar.Props.C96_current_scaling",
    "Picsar.Props.C96_continuity",
    "Picsar.Props.C96_continuity_off_axis",
    "Picsar.Props.C96_corrected_volume_breaks_continuity_refuted"
   ],
   "note": "Proved for type_rz_depose other than 1 on a grid that starts on the axis or whose rows all lie on one side of it: charge per ring, total, current scaling, cylindrical continuity from the particles to the scaled arrays. Refuted for type_rz_depose=1 (axis volume) and for guard rows that reach the axis (division by zero)."
  },
  {
   "property": "C97",
   "status": "partial",
   "theorems": [
    "Picsar.Props.C97_same_as_scalar",
    "Picsar.Props.C97_density",
    "Picsar.Props.C97_positions",
    "Picsar.Props.C97_block_length",
    "Picsar.Props.C97_outside_tile_refuted",
    "Picsar.Props.C97_no_guard_refuted"
   ],
   "note": "Orders 1 to 3, any block length and SIMD width (a SIMD statement reads all lanes, then writes all lanes). The particles must be in the tile, faces included, as the particle boundary conditions that precede the deposition ensure, and the tile must have the guard cells of the scalar routine: C97_outside_tile_refuted and C97_no_guard_refuted show that the vectorised routine needs both where the scalar one does not."
  },
  {
   "property": "C98",
   "status": "partial",
   "theorems": [
    "Picsar.Props.C98_no_fault",
    "Picsar.Props.C98_density",
    "Picsar.Props.C98_density_plane",
    "Picsar.Props.C98_decomposition",
    "Picsar.Props.C98_momenta",
    "Picsar.Props.C98_stored",
    "Picsar.Props.C98_random",
    "Picsar.Props.C98_superluminal_refuted",
    "Picsar.Props.C98_isotropy_refuted",
    "Picsar.Props.C98_random_region_refuted",
    "Picsar.Props.C98_third_distribution_refuted"
   ],
   "note": "Density, decomposition, storage in tiles and momenta are proved for the uniform distribution in 3-D (density also in the plane), storage, momenta, number and weights also for the random one. Missing or false: the loading needs drift plus seven thermal velocities below the speed of light (C98_superluminal_refuted); the thermal part is not isotropic (C98_isotropy_refuted); random positions ignore the region (C98_random_region_refuted); the third distribution reads an undefined pointer (C98_third_distribution_refuted). Random numbers are an arbitrary sequence in [0,1)."
  },
  {
   "property": "C99",
   "status": "partial",
   "theorems": [
    "Picsar.Props.C99_frame",
    "Picsar.Props.C99_plane",
    "Picsar.Props.C99_decomposition",
    "Picsar.Props.C99_silent",
    "Picsar.Props.C99_path",
    "Picsar.Props.C99_blocks",
    "Picsar.Props.C99_speed",
    "Picsar.Props.C99_symmetric",
    "Picsar.Props.C99_current_partial",
    "Picsar.Props.C99_given",
    "Picsar.Props.C99_null_vector_refuted",
    "Picsar.Props.C99_odd_order_refuted",
    "Picsar.Props.C99_continuous_phase_refuted",
    "Picsar.Props.C99_hann_zero_peak_refuted",
    "Picsar.Props.C99_rotated_polarisation_refuted",
    "Picsar.Props.C99_large_cells_refuted"
   ],
   "note": "Plane, decomposition, frame, path of the emitters, symmetry and given amplitudes are proved in 3-D for all settings. C99_current_partial: the current is right for direction and polarisation along axes and cells of size at most one; false otherwise (C99_rotated_polarisation_refuted, C99_large_cells_refuted). Also false: a null direction divides by zero before the check (C99_null_vector_refuted); odd orders exceed the speed (C99_odd_order_refuted; C99_speed for even ones); order 0 ignores the phase shift (C99_continuous_phase_refuted); a Hann window with peak at 0 divides by zero (C99_hann_zero_peak_refuted). Missing: loading in two dimensions (modelled, no theorem)."
  },
  {
   "property": "C100",
   "status": "partial",
   "theorems": [
    "Picsar.Props.C100_file",
    "Picsar.Props.C100_owner",
    "Picsar.Props.C100_decomposition",
    "Picsar.Props.C100_split",
    "Picsar.Props.C100_empty_process",
    "Picsar.Props.C100_schedule",
    "Picsar.Props.C100_names_partial",
    "Picsar.Props.C100_names_refuted",
    "Picsar.Props.C100_guards_refuted"
   ],
   "note": "Contents, ownership, independence of the decomposition and schedule are proved. C100_names_partial: different names for steps below 100000; from then on all dumps of a field have the same name (C100_names_refuted). Currents and charge density are allocated with their own guard cells but written with those of the fields (C100_guards_refuted when they differ). A process without cells makes the MPI datatype fail (C100_empty_process). The MPI library (subarray types, collective writes to disjoint bytes) is modelled, not verified."
  },
  {
   "property": "C101",
   "status": "partial",
   "theorems": [
    "Picsar.Props.C101_div",
    "Picsar.Props.C101_flat_refuted",
    "Picsar.Props.C101_divB_partial",
    "Picsar.Props.C101_divB_refuted",
    "Picsar.Props.C101_gauss",
    "Picsar.Props.C101_array_norm",
    "Picsar.Props.C101_gauss_kept"
   ],
   "note": "Proved in three dimensions for div E, div J and the norms. C101_divB_partial: div B at the cells 1..n; the points of the file with an index 0 keep the unset content of the array (C101_divB_refuted). In two dimensions the divergence reads outside the arrays (C101_flat_refuted)."
  },
  {
   "property": "C102",
   "status": "partial",
   "theorems": [
    "Picsar.Props.C102_safe",
    "Picsar.Props.C102_one_tile_partial",
    "Picsar.Props.C102_wrong_particle_refuted",
    "Picsar.Props.C102_lost_refuted",
    "Picsar.Props.C102_processes_refuted",
    "Picsar.Props.C102_due",
    "Picsar.Props.C102_names_partial",
    "Picsar.Props.C102_step",
    "Picsar.Props.C102_two_dumps_refuted"
   ],
   "note": "Memory safety and sizes for every distribution; content for one process with one tile (C102_one_tile_partial). With two tiles the wrong particle is dumped (C102_wrong_particle_refuted) or places stay unset (C102_lost_refuted); with two processes that have asked particles the blocks overwrite each other (C102_processes_refuted); two dumps of one species share a file (C102_two_dumps_refuted). Names differ up to step 99999 (C102_names_partial)."
  },
  {
   "property": "C103",
   "status": "partial",
   "theorems": [
    "Picsar.Props.C103_values",
    "Picsar.Props.C103_files_partial",
    "Picsar.Props.C103_gap_refuted",
    "Picsar.Props.C103_no_file_refuted",
    "Picsar.Props.C103_extra_process_refuted",
    "Picsar.Props.C103_unit_refuted",
    "Picsar.Props.C103_default_refuted",
    "Picsar.Props.C103_due"
   ],
   "note": "C103_values: every selection. C103_files_partial: the first m diagnostics selected and fewer than m processes (or exactly m without field dumps). Refuted: a selection with a gap (C103_gap_refuted, C103_no_file_refuted), more processes than diagnostics (C103_extra_process_refuted), a field dump taking unit 42 (C103_unit_refuted), settings left out of the input file (C103_default_refuted). Reading an index that was never set is a fault in the model; the compiled program would take whatever the static variable holds."
  },
  {
   "property": "C104",
   "status": "partial",
   "theorems": [
    "Picsar.Props.C104_staggered",
    "Picsar.Props.C104_nodal",
    "Picsar.Props.C104_fdtd_partial",
    "Picsar.Props.C104_fdtd_refuted",
    "Picsar.Props.C104_fdtd_nodal_refuted"
   ],
   "note": "Pseudo-spectral stencils: proved for every even order. Finite-difference solvers: orders 2 and 4 only (C104_fdtd_partial); order 6 gives 61/64 as derivative of x (C104_fdtd_refuted), nodal order 2 gives 4 (C104_fdtd_nodal_refuted)."
  },
  {
   "property": "C105",
   "status": "partial",
   "theorems": [
    "Picsar.Props.C105_staggered",
    "Picsar.Props.C105_nodal_partial",
    "Picsar.Props.C105_alternating_refuted",
    "Picsar.Props.C105_infinite_refuted",
    "Picsar.Props.C105_one_point_refuted"
   ],
   "note": "Even orders: proved on staggered grids; on unstaggered grids the alternating wave has wave number 0 (C105_alternating_refuted). Infinite order: the wave number is a quarter of the right one (C105_infinite_refuted), and with one point along an axis an element outside of the array is written (C105_one_point_refuted)."
  },
  {
   "property": "C106",
   "status": "proved",
   "theorems": [
    "Picsar.Props.C106_exact"
   ],
   "note": "Real numbers are exact; the transforms of FFTW are the sums of its documentation; mu0 eps0 c^2 = 1 is a hypothesis (in SI units the constants of the code satisfy it up to rounding). One process per transform, no absorbing layer, arrays of the transform periodic."
  },
  {
   "property": "C107",
   "status": "proved",
   "theorems": [
    "Picsar.Props.C107_gauss",
    "Picsar.Props.C107_energy",
    "Picsar.Props.C107_steps"
   ],
   "note": "Same scope as C106."
  },
  {
   "property": "C108",
   "status": "proved",
   "theorems": [
    "Picsar.Props.C108_matrix",
    "Picsar.Props.C108_exact"
   ],
   "note": "Holds whenever the coefficients can be computed (C105-C106 say when); real numbers exact; one process per transform."
  },
  {
   "property": "C109",
   "status": "proved",
   "theorems": [
    "Picsar.Props.C109_split",
    "Picsar.Props.C109_run"
   ],
   "note": "The damping coefficients of the layers and the reflecting cells behind them are not part of the statement; one process per transform."
  },
  {
   "property": "C110",
   "status": "partial",
   "theorems": [
    "Picsar.Props.C110_forward_partial",
    "Picsar.Props.C110_backward",
    "Picsar.Props.C110_shift_refuted",
    "Picsar.Props.C110_short_refuted"
   ],
   "note": "Proved for equal numbers of guard cells (and for the copy back in general). With more guard cells for the currents they are taken from other points (C110_shift_refuted), with fewer their arrays are read outside of their bounds (C110_short_refuted); the input file lines nguardsx, nguardsy, nguardsz set only those of the fields."
  },
  {
   "property": "C111",
   "status": "proved",
   "theorems": [
    "Picsar.Props.C111_rate",
    "Picsar.Props.C111_distribution",
    "Picsar.Props.C111_table"
   ],
   "note": "Quadratures and Bessel functions exact (the integrals that they approximate)."
  },
  {
   "property": "C112",
   "status": "proved",
   "theorems": [
    "Picsar.Props.C112_rate",
    "Picsar.Props.C112_distribution",
    "Picsar.Props.C112_beyond",
    "Picsar.Props.C112_table",
    "Picsar.Props.C112_recoil"
   ],
   "note": "Quadratures and Bessel functions exact; the root finder of the Boost library is assumed to find a root when there is one (QS.SolvesRoots)."
  },
  {
   "property": "C113",
   "status": "partial",
   "theorems": [
    "Picsar.Props.C113_pair_rate",
    "Picsar.Props.C113_pair_node_partial",
    "Picsar.Props.C113_set_lambda_refuted",
    "Picsar.Props.C113_photon_rate"
   ],
   "note": "Proved between nodes and at nodes. In SI units set_lambda stores a value other than 1, which the rate without table uses and the one with table does not (C113_set_lambda_refuted); C113_pair_node_partial is for the lambda of the constructor."
  },
  {
   "property": "C114",
   "status": "partial",
   "theorems": [
    "Picsar.Props.C114_direct_current",
    "Picsar.Props.C114_order",
    "Picsar.Props.C114_total_current",
    "Picsar.Props.C114_continuity_refuted"
   ],
   "note": "Proved for the value of every node, the order and the total; the continuity equation does not hold (C114_continuity_refuted)."
  },
  {
   "property": "C115",
   "status": "partial",
   "theorems": [
    "Picsar.Props.C115_tile_current_partial",
    "Picsar.Props.C115_same_as_scalar_partial",
    "Picsar.Props.C115_two_guards_refuted",
    "Picsar.Props.C115_short_block_refuted"
   ],
   "note": "Proved with three guard cells where the columns need them and blocks of at least eight particles. With the two guard cells the program starts with, orders 2 and 3 write before the array (C115_two_guards_refuted); with a block length below eight the arrays of the block overflow (C115_short_block_refuted)."
  },
  {
   "property": "C116",
   "status": "proved",
   "theorems": [
    "Picsar.Props.C116_convolution",
    "Picsar.Props.C116_guard_cells",
    "Picsar.Props.C116_plane"
   ],
   "note": "Two and three dimensions; the guard cells needed are proved necessary and sufficient."
  },
  {
   "property": "C117",
   "status": "proved",
   "theorems": [
    "Picsar.Props.C117_response",
    "Picsar.Props.C117_constant",
    "Picsar.Props.C117_no_amplification",
    "Picsar.Props.C117_stops"
   ],
   "note": "For the decimal numbers of the tables (they are single precision literals in the code)."
  },
  {
   "property": "C118",
   "status": "partial",
   "theorems": [
    "Picsar.Props.C118_columns_partial",
    "Picsar.Props.C118_stencils_partial",
    "Picsar.Props.C118_tabulated_refuted",
    "Picsar.Props.C118_continuity_refuted",
    "Picsar.Props.C118_last_column_refuted"
   ],
   "note": "Proved: the two columns around the ratio are combined, the second with weight c. Violated: integer division makes this weight the ratio itself instead of its distance to the column, so tabulated ratios do not give tabulated coefficients (C118_tabulated_refuted), the result jumps (C118_continuity_refuted), and the column for ratio 1 is cut off by reshape (C118_last_column_refuted)."
  },
  {
   "property": "C119",
   "status": "partial",
   "theorems": [
    "Picsar.Props.C119_each_particle_once",
    "Picsar.Props.C119_schedule_irrelevant",
    "Picsar.Props.C119_landau_lifshitz_refuted"
   ],
   "note": "Three dimensions; pushers Boris, Vay and Boris with radiation reaction (where their formulas divide by zero the conclusion is not claimed). Violated: pusher 4 reads attribute columns that do not exist or whose numbers are never set (C119_landau_lifshitz_refuted)."
  },
  {
   "property": "C120",
   "status": "partial",
   "theorems": [
    "Picsar.Props.C120_default_step_partial",
    "Picsar.Props.C120_mixed_orders_refuted",
    "Picsar.Props.C120_options_ignored_refuted",
    "Picsar.Props.C120_radiation_refuted",
    "Picsar.Props.C120_full_order_refuted"
   ],
   "note": "Proved for equal orders, lowered order, Yee grid, Boris and Vay. Violated: mixed orders are not pushed at all (C120_mixed_orders_refuted); l_lower_order_in_v, l_nodalgrid and radiation reaction are ignored (C120_options_ignored_refuted, with the runs C120_full_order_refuted and C120_radiation_refuted)."
  },
  {
   "property": "C121",
   "status": "partial",
   "theorems": [
    "Picsar.Props.C121_tiling_suffices",
    "Picsar.Props.C121_more_current_guards_refuted"
   ],
   "note": "Proved if the currents have not more guard cells than the fields; otherwise the copy to the tile leaves the field array (C121_more_current_guards_refuted)."
  },
  {
   "property": "C122",
   "status": "proved",
   "theorems": [
    "Picsar.Props.C122_step",
    "Picsar.Props.C122_run"
   ],
   "note": "Photons with momentum whose clamped quantum parameter is nowhere exactly an inner grid point of the pair table (there C24 is false and the program stops); fewer than 2^64 photons."
  },
  {
   "property": "C123",
   "status": "proved",
   "theorems": [
    "Picsar.Props.C123_survivors",
    "Picsar.Props.C123_exponential"
   ],
   "note": "Same photons as in C122."
  },
  {
   "property": "C124",
   "status": "partial",
   "theorems": [
    "Picsar.Props.C124_positions_partial",
    "Picsar.Props.C124_light_cone_refuted"
   ],
   "note": "Photons that stay and the line on which pairs are born are right. Violated: a decaying photon has already been moved by the whole step and is moved by the time to decay on top of it, so that the pair is born outside the light cone (C124_light_cone_refuted)."
  },
  {
   "property": "C125",
   "status": "partial",
   "theorems": [
    "Picsar.Props.C125_file_names",
    "Picsar.Props.C125_prefixes_refuted",
    "Picsar.Props.C125_contents_partial",
    "Picsar.Props.C125_labels_refuted"
   ],
   "note": "Violated: thirteen labels, fourteen values (C125_labels_refuted); different prefixes can give the same name (C125_prefixes_refuted). Formatting of numbers is not modelled."
  },
  {
   "property": "C126",
   "status": "partial",
   "theorems": [
    "Picsar.Props.C126_messages",
    "Picsar.Props.C126_bounds",
    "Picsar.Props.C126_guards_refuted"
   ],
   "note": "Violated if every process is a group of its own and nzg_group differs from nzguards, which the input allows (C126_guards_refuted)."
  },
  {
   "property": "C127",
   "status": "proved",
   "theorems": [
    "Picsar.Props.C127_setup",
    "Picsar.Props.C127_once"
   ],
   "note": "Slabs as documented for fftw_mpi_local_size_3d; at least as many cells as processes."
  },
  {
   "property": "C128",
   "status": "partial",
   "theorems": [
    "Picsar.Props.C128_transforms_partial",
    "Picsar.Props.C128_everywhere",
    "Picsar.Props.C128_odd_refuted"
   ],
   "note": "Proved for decompositions in which no process meets a slab in two periods; C127_once shows that the set-up gives such a decomposition for three or more processes in the direction or an even number of cells. Violated for two processes in one group and an odd number of cells (C128_odd_refuted)."
  },
  {
   "property": "C129",
   "status": "proved",
   "theorems": [
    "Picsar.Props.C129_back",
    "Picsar.Props.C129_unique"
   ],
   "note": ""
  },
  {
   "property": "C130",
   "status": "proved",
   "theorems": [
    "Picsar.Props.C130_round_trip"
   ],
   "note": "Same decompositions as C128."
  },
  {
   "property": "C131",
   "status": "partial",
   "theorems": [
    "Picsar.Props.C131_ends",
    "Picsar.Props.C131_requests",
    "Picsar.Props.C131_persistent_refuted"
   ],
   "note": "Violated for mpicom_curr = 2: the requests are not allocated (C131_persistent_refuted)."
  },
  {
   "property": "C132",
   "status": "partial",
   "theorems": [
    "Picsar.Props.C132_local_partial",
    "Picsar.Props.C132_accounted",
    "Picsar.Props.C132_inside",
    "Picsar.Props.C132_split",
    "Picsar.Props.C132_inner_tile_refuted"
   ],
   "note": "Proved if particles leave the subdomain from tiles at its border only. Violated otherwise: the buffer of an inner tile is not allocated (C132_inner_tile_refuted)."
  },
  {
   "property": "C133",
   "status": "partial",
   "theorems": [
    "Picsar.Props.C133_stored",
    "Picsar.Props.C133_delivered_partial",
    "Picsar.Props.C133_terminates",
    "Picsar.Props.C133_conserved_partial",
    "Picsar.Props.C133_inner_tile_refuted"
   ],
   "note": "Full result for all schedules in C133_stored; delivery proved if what arrives belongs to border tiles. Violated otherwise: such a particle is dropped (C133_inner_tile_refuted). Counts taken when posted: see C134."
  },
  {
   "property": "C134",
   "status": "partial",
   "theorems": [
    "Picsar.Props.C134_counts_partial",
    "Picsar.Props.C134_prompt_partial",
    "Picsar.Props.C134_counts_refuted",
    "Picsar.Props.C134_too_small_refuted"
   ],
   "note": "Violated: one variable is the buffer of all pending sends (C134_counts_refuted). Right for libraries that read at once (C134_prompt_partial) and for equal counts."
  },
  {
   "property": "C135",
   "status": "partial",
   "theorems": [
    "Picsar.Props.C135_number_partial",
    "Picsar.Props.C135_number_refuted"
   ],
   "note": "Violated: the number is never decreased (C135_number_refuted); exact excess in C135_number_partial."
  },
  {
   "property": "C136",
   "status": "partial",
   "theorems": [
    "Picsar.Props.C136_gather_partial",
    "Picsar.Props.C136_gather_nodal",
    "Picsar.Props.C136_in_bounds",
    "Picsar.Props.C136_modes_refuted",
    "Picsar.Props.C136_theta_refuted"
   ],
   "note": "Full result for all options in C136_gather_partial with the nodes the code uses; equals the claim on nodal grids with full order (C136_gather_nodal). Violated: modes above 0 are read at displaced nodes for most options (C136_modes_refuted); the azimuthal components on a Yee grid are read half a cell off (C136_theta_refuted)."
  },
  {
   "property": "C137",
   "status": "proved",
   "theorems": [
    "Picsar.Props.C137_uniform_exact"
   ],
   "note": ""
  },
  {
   "property": "C138",
   "status": "proved",
   "theorems": [
    "Picsar.Props.C138_deposits",
    "Picsar.Props.C138_continuity"
   ],
   "note": "Shapes of Davoine (type_rz_depose = 2) not modelled."
  },
  {
   "property": "C139",
   "status": "partial",
   "theorems": [
    "Picsar.Props.C139_wall",
    "Picsar.Props.C139_axis_partial",
    "Picsar.Props.C139_axis_refuted",
    "Picsar.Props.C139_axis_low_order",
    "Picsar.Props.C139_axis_row"
   ],
   "note": "Proved off the axis, for mode 0, for orders 0 and 1 in r, and on the axis for mode 0. Violated for orders 2 and 3 next to the axis on modes above 0: Jtheta below the axis is folded back with the wrong sign (C139_axis_refuted); exact excess in C139_axis_partial."
  },
  {
   "property": "C140",
   "status": "proved",
   "theorems": [
    "Picsar.Props.C140_axis_regular"
   ],
   "note": ""
  },
  {
   "property": "C141",
   "status": "partial",
   "theorems": [
    "Picsar.Props.C141_left_handed",
    "Picsar.Props.C141_right_handed_partial",
    "Picsar.Props.C141_right_handed_refuted",
    "Picsar.Props.C141_order"
   ],
   "note": "Proved for arrays whose axes 1, 2, 3 are left-handed (z, y, x). For right-handed axes the library's relabelling (axes reversed, components reversed) is a reflection and the magnetic field has to be given reversed (C141_right_handed_partial, _refuted)."
  },
  {
   "property": "C142",
   "status": "proved",
   "theorems": [
    "Picsar.Props.C142_safe"
   ],
   "note": ""
  },
  {
   "property": "C143",
   "status": "partial",
   "theorems": [
    "Picsar.Props.C143_rotation_partial",
    "Picsar.Props.C143_rotation_refuted"
   ],
   "note": "Proved where the stencil is complete. Violated at the ends of the arrays: the first component of E has no limit on the terms along y and z in its inner sums, the others have (C143_rotation_refuted)."
  },
  {
   "property": "C144",
   "status": "proved",
   "theorems": [
    "Picsar.Props.C144_divergences"
   ],
   "note": ""
  },
  {
   "property": "C145",
   "status": "partial",
   "theorems": [
    "Picsar.Props.C145_transforms_partial",
    "Picsar.Props.C145_transforms_refuted"
   ],
   "note": "Holds while the grid keeps its size. Violated for a larger grid: the Fourier arrays of the first call are kept (C145_transforms_refuted)."
  },
  {
   "property": "C146",
   "status": "partial",
   "theorems": [
    "Picsar.Props.C146_ampere",
    "Picsar.Props.C146_faraday",
    "Picsar.Props.C146_guard_refuted"
   ],
   "note": "Proved for boxes whose points off the axis have a non-zero radius. Violated when the box reaches a point on the axis below a grid that does not start there: division by zero (C146_guard_refuted)."
  },
  {
   "property": "C147",
   "status": "proved",
   "theorems": [
    "Picsar.Props.C147_divergences"
   ],
   "note": ""
  },
  {
   "property": "C148",
   "status": "proved",
   "theorems": [
    "Picsar.Props.C148_electric",
    "Picsar.Props.C148_magnetic"
   ],
   "note": ""
  },
  {
   "property": "C149",
   "status": "partial",
   "theorems": [
    "Picsar.Props.C149_wall",
    "Picsar.Props.C149_axis_partial",
    "Picsar.Props.C149_axis_row_partial",
    "Picsar.Props.C149_axis_row_refuted"
   ],
   "note": "Proved off the axis; on grids with an axis for mode 0 or orders 0 and 1 (the rest fails with the deposition, C139), and on the axis for the plain volume. Violated on the axis with type_rz_depose = 1: the solver keeps the flux factor of the plain volume (C149_axis_row_refuted)."
  },
  {
   "property": "C150",
   "status": "partial",
   "theorems": [
    "Picsar.Props.C150_grid_partial",
    "Picsar.Props.C150_grid3d_partial",
    "Picsar.Props.C150_bx_refuted",
    "Picsar.Props.C150_stop"
   ],
   "note": "Proved for every component but Bx. Violated for Bx: the term with Ey carries c*beta instead of beta/c (C150_bx_refuted)."
  },
  {
   "property": "C151",
   "status": "proved",
   "theorems": [
    "Picsar.Props.C151_snapshot"
   ],
   "note": ""
  },
  {
   "property": "C152",
   "status": "partial",
   "theorems": [
    "Picsar.Props.C152_momentum_partial",
    "Picsar.Props.C152_gamma_refuted"
   ],
   "note": "Proved for the three components of the momentum. Violated for gamma: it is interpolated but never transformed, so that it does not belong to the reported momentum (C152_gamma_refuted)."
  },
  {
   "property": "C153",
   "status": "proved",
   "theorems": [
    "Picsar.Props.C153_uniform"
   ],
   "note": ""
  },
  {
   "property": "C154",
   "status": "proved",
   "theorems": [
    "Picsar.Props.C154_engines_are_values",
    "Picsar.Props.C154_without_innards"
   ],
   "note": ""
  },
  {
   "property": "C155",
   "status": "proved",
   "theorems": [
    "Picsar.Props.C155_others_unchanged"
   ],
   "note": ""
  },
  {
   "property": "C156",
   "status": "partial",
   "theorems": [
    "Picsar.Props.C156_balance",
    "Picsar.Props.C156_no_leak_partial",
    "Picsar.Props.C156_refuted"
   ],
   "note": "The balance is proved for all histories. Violated when a table in memory of its engine is computed or assigned anew: the copy assignment of picsar_vector overwrites the pointer (C156_refuted: 2 arrays for each further computation, without bound); without such operations nothing is lost (C156_no_leak_partial)."
  },
  {
   "property": "C157",
   "status": "partial",
   "theorems": [
    "Picsar.Props.C157_ready_partial",
    "Picsar.Props.C157_moved_refuted",
    "Picsar.Props.C157_innards_refuted"
   ],
   "note": "Violated by the move constructor, which does not reset the flags (C157_moved_refuted), and by the constructor from innards, which sets them whatever it gets (C157_innards_refuted). Proved for histories without the two."
  },
  {
   "property": "C158",
   "status": "partial",
   "theorems": [
    "Picsar.Props.C158_compute_partial",
    "Picsar.Props.C158_read_refuted"
   ],
   "note": "Proved for computing. Violated for reading from a file: the moved-from vectors do not manage their memory, and resize throws (C158_read_refuted)."
  },
  {
   "property": "C159",
   "status": "proved",
   "theorems": [
    "Picsar.Props.C159_particles_kept"
   ],
   "note": ""
  },
  {
   "property": "C160",
   "status": "partial",
   "theorems": [
    "Picsar.Props.C160_species_partial",
    "Picsar.Props.C160_flags_refuted"
   ],
   "note": "Violated: create_new_tile_split copies fifteen components, and not the flags is_antenna, ldodepos, lfreeze nor the sorting parameters and the name: antennas, frozen species and test particles become ordinary species (C160_flags_refuted). Proved for the copied components."
  },
  {
   "property": "C161",
   "status": "partial",
   "theorems": [
    "Picsar.Props.C161_count_partial",
    "Picsar.Props.C161_count_refuted",
    "Picsar.Props.C161_grids_refuted"
   ],
   "note": "Violated: species_npart of the new species is never set to zero, so that the counter is off by an undefined value (C161_count_refuted, with the exact formula in C161_count_partial), and the arrays of the new grid tiles are never allocated, since l_aofgrid_tiles_array_allocated is still set (C161_grids_refuted, for every call)."
  },
  {
   "property": "C162",
   "status": "proved",
   "theorems": [
    "Picsar.Props.C162_loads",
    "Picsar.Props.C162_outside"
   ],
   "note": ""
  },
  {
   "property": "C163",
   "status": "partial",
   "theorems": [
    "Picsar.Props.C163_total",
    "Picsar.Props.C163_time_partial",
    "Picsar.Props.C163_flush_refuted",
    "Picsar.Props.C163_measured_partial"
   ],
   "note": "Totals proved. The numbers of particles are reduced with MPI_REAL8: right for fewer than 2^53 particles where subnormal numbers are honoured (C163_time_partial, C163_measured_partial), zero on processors that flush them (C163_flush_refuted)."
  },
  {
   "property": "C164",
   "status": "partial",
   "theorems": [
    "Picsar.Props.C164_axis",
    "Picsar.Props.C164_split_partial",
    "Picsar.Props.C164_split2d_partial",
    "Picsar.Props.C164_beyond_end_refuted"
   ],
   "note": "Violated for a plane with more than the average load (C164_beyond_end_refuted); proved when there is none."
  },
  {
   "property": "C165",
   "status": "partial",
   "theorems": [
    "Picsar.Props.C165_delivered_partial",
    "Picsar.Props.C165_inner_tiles_refuted"
   ],
   "note": "Proved if all particles that have to leave are in tiles at the border of the old subdomain. Violated otherwise: the routine looks only at tiles flagged subdomain_bound, and the new limits may exclude inner tiles (C165_inner_tiles_refuted)."
  },
  {
   "property": "C166",
   "status": "partial",
   "theorems": [
    "Picsar.Props.C166_kept_partial",
    "Picsar.Props.C166_buffer_refuted"
   ],
   "note": "Proved if npart_local is at least the number of particles of the process. The send buffers have npart_local columns, which is set only by compute_time_per_part: a smaller value gives writes out of bounds (C166_buffer_refuted)."
  },
  {
   "property": "C167",
   "status": "proved",
   "theorems": [
    "Picsar.Props.C167_no_deadlock"
   ],
   "note": ""
  },
  {
   "property": "C168",
   "status": "partial",
   "theorems": [
    "Picsar.Props.C168_history_partial",
    "Picsar.Props.C168_y_refuted"
   ],
   "note": "Proved for the two-dimensional additions, which store y = 0. Violated for particles stored with another y by py_add_particles_to_species: the removal does not copy part_y, so that the moved particle gets the y of the removed one (C168_y_refuted)."
  },
  {
   "property": "C169",
   "status": "partial",
   "theorems": [
    "Picsar.Props.C169_delivered_partial",
    "Picsar.Props.C169_y_refuted"
   ],
   "note": "Proved for all properties but y. The message does not contain y (its place in the buffer is sent unwritten), and the neighbour stores 0 (C169_y_refuted)."
  },
  {
   "property": "C170",
   "status": "partial",
   "theorems": [
    "Picsar.Props.C170_values_partial",
    "Picsar.Props.C170_fields_refuted"
   ],
   "note": "Proved for positions, momenta and further properties; stored field values are returned in the same order. Violated for fields after removals: rm_particle_at_tile does not move part_ex ... part_bz, so that the moved particle is listed with the fields at the removed one (C170_fields_refuted)."
  },
  {
   "property": "C171",
   "status": "partial",
   "theorems": [
    "Picsar.Props.C171_selected_partial",
    "Picsar.Props.C171_stale_refuted"
   ],
   "note": "Proved if index_particle contains no 1 before the call. load_test_plane does not clear it (INTENT(OUT)): a mark left for a particle that does not cross makes select_quantity write out of bounds (C171_stale_refuted)."
  },
  {
   "property": "C172",
   "status": "proved",
   "theorems": [
    "Picsar.Props.C172_on_plane"
   ],
   "note": ""
  },
  {
   "property": "C173",
   "status": "partial",
   "theorems": [
    "Picsar.Props.C173_summation_partial",
    "Picsar.Props.C173_late_refuted",
    "Picsar.Props.C173_count_refuted",
    "Picsar.Props.C173_moved_refuted"
   ],
   "note": "Proved for the time loop of the program with the arrays of the first call. Violated when the first call has it /= 0 (requests never created, C173_late_refuted), when the array is bound to other storage later (the old one is sent, C173_moved_refuted), and for jx when the local variable sz, passed as a count before it has a value, happens to be negative (C173_count_refuted)."
  },
  {
   "property": "C174",
   "status": "partial",
   "theorems": [
    "Picsar.Props.C174_bounded_partial",
    "Picsar.Props.C174_grows_refuted"
   ],
   "note": "Proved for the time loop of the program. Scripts that call the routines one by one leave it = 0, and every call creates 6 or 8 new requests that are never freed (C174_grows_refuted)."
  },
  {
   "property": "C175",
   "status": "proved",
   "theorems": [
    "Picsar.Props.C175_summation",
    "Picsar.Props.C175_exchange",
    "Picsar.Props.C175_terminates"
   ],
   "note": ""
  },
  {
   "property": "C176",
   "status": "partial",
   "theorems": [
    "Picsar.Props.C176_summation_partial",
    "Picsar.Props.C176_absorbing_refuted"
   ],
   "note": "Proved for periodic boundaries. With an absorbing boundary the neighbours are those of the periodic arrangement, and contributions beyond one end of the domain are added at the other (C176_absorbing_refuted, as C50 in three dimensions)."
  },
  {
   "property": "C177",
   "status": "proved",
   "theorems": [
    "Picsar.Props.C177_no_conflict",
    "Picsar.Props.C177_same_as_sequential",
    "Picsar.Props.C177_storage"
   ],
   "note": "One tile in y. The steps of the threads use the storage routines of three dimensions; C177_storage shows that those of two dimensions do the same for particles in the plane (what they do for others: C168)."
  },
  {
   "property": "C178",
   "status": "proved",
   "theorems": [
    "Picsar.Props.C178_remap",
    "Picsar.Props.C178_terminates"
   ],
   "note": "The limits are given; the table of limits is that of C68/C69. The local copy is treated as a message of a process to itself. Inside the repository the routine is offered to scripts only."
  },
  {
   "property": "C179",
   "status": "partial",
   "theorems": [
    "Picsar.Props.C179_kinetic_partial",
    "Picsar.Props.C179_scaled_partial",
    "Picsar.Props.C179_mass_refuted"
   ],
   "note": "Proved for species with the mass of the electron. The code multiplies by the electron mass for every species: the value of a species of mass m is its kinetic energy times emass/m (C179_scaled_partial), which is wrong for every other species with moving particles (C179_mass_refuted)."
  },
  {
   "property": "C180",
   "status": "partial",
   "theorems": [
    "Picsar.Props.C180_one_plane_partial",
    "Picsar.Props.C180_storage_partial",
    "Picsar.Props.C180_plane_refuted"
   ],
   "note": "Proved for arrays with a single plane in y. The arrays of 2-D simulations have two planes (ny = 1, nyguards = 0), while the routine declares one: by sequence association it reads lines of both planes alternately, at half the height (C180_storage_partial), so that energy in the plane can be missed altogether or reported where there is none (C180_plane_refuted)."
  },
  {
   "property": "C181",
   "status": "partial",
   "theorems": [
    "Picsar.Props.C181_norm_partial",
    "Picsar.Props.C181_total_partial",
    "Picsar.Props.C181_norm_refuted"
   ],
   "note": "Proved: the value is the root of the sum of squares over the plane y = 1 of all processes. The solver and the deposition use the plane y = 0, on which the value does not depend at all (C181_norm_refuted)."
  },
  {
   "property": "C182",
   "status": "partial",
   "theorems": [
    "Picsar.Props.C182_slab_partial",
    "Picsar.Props.C182_cover",
    "Picsar.Props.C182_any_partial",
    "Picsar.Props.C182_random_refuted"
   ],
   "note": "Proved for the ordered and the Cartesian topology. With the random topology the sizes are gathered by rank but used by coordinate: on two processes the program either stops or gives the process of rank 0 the half of the grid that the transform gives to rank 1 (C182_random_refuted)."
  },
  {
   "property": "C183",
   "status": "proved",
   "theorems": [
    "Picsar.Props.C183_flags",
    "Picsar.Props.C183_full"
   ],
   "note": "Proved for tiles whose arrays are allocated, as init_tile_arrays leaves them."
  },
  {
   "property": "C184",
   "status": "partial",
   "theorems": [
    "Picsar.Props.C184_add_partial",
    "Picsar.Props.C184_outside_refuted"
   ],
   "note": "Proved for positions in the subdomain; refuted for others: more than half a cell below the lower limit in x the tile array is accessed out of bounds, above the upper limit the particle is stored in a tile although it lies in none."
  },
  {
   "property": "C185",
   "status": "proved",
   "theorems": [
    "Picsar.Props.C185_reported",
    "Picsar.Props.C185_no_leak",
    "Picsar.Props.C185_species"
   ],
   "note": "Particle arrays only; the memory of the grid tiles and the sum over processes are not part of the claim. The thresholds 0.4 and 0.5 are exact."
  }
 ]
}