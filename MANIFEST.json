{
 "claims": [
  {
   "property": "C01",
   "status": "proved",
   "theorems": [
    "HBT.Props.C01_offsets_tile"
   ],
   "note": ""
  },
  {
   "property": "C02",
   "status": "proved",
   "theorems": [
    "HBT.Props.C02_fair_split",
    "HBT.Props.C02_balanced"
   ],
   "note": ""
  },
  {
   "property": "C03",
   "status": "proved",
   "theorems": [
    "HBT.Props.C03_factors",
    "HBT.Props.C03_rank_valid",
    "HBT.Props.C03_decomposition",
    "HBT.Props.C03_same_rank_iff_same_cell"
   ],
   "note": "floor(pow(N,1./dim)) is a parameter; assumed >= 1 for N >= 1 and exact for dim = 1 (RootOk)."
  },
  {
   "property": "C04",
   "status": "proved",
   "theorems": [
    "HBT.Props.C04_wrap",
    "HBT.Props.C04_wrap_periodic",
    "HBT.Props.C04_minimum_image",
    "HBT.Props.C04_distance_symm",
    "HBT.Props.C04_distance_minimal"
   ],
   "note": "Exact arithmetic over any linearly ordered field with floor; floating-point rounding is not modelled."
  },
  {
   "property": "C05",
   "status": "proved",
   "theorems": [
    "HBT.Props.C05_reverses",
    "HBT.Props.C05_involution",
    "HBT.Props.C05_overrun"
   ],
   "note": ""
  },
  {
   "property": "C06",
   "status": "proved",
   "theorems": [
    "HBT.Props.C06_select",
    "HBT.Props.C06_kth_unique"
   ],
   "note": ""
  },
  {
   "property": "C07",
   "status": "proved",
   "theorems": [
    "HBT.Props.C07_read_record",
    "HBT.Props.C07_skip_record",
    "HBT.Props.C07_sequence",
    "HBT.Props.C07_marker_mismatch",
    "HBT.Props.C07_skip_marker_mismatch"
   ],
   "note": ""
  },
  {
   "property": "C08",
   "status": "proved",
   "theorems": [
    "HBT.Props.C08_mapped_lookup",
    "HBT.Props.C08_mapped_exact",
    "HBT.Props.C08_null_cases"
   ],
   "note": ""
  },
  {
   "property": "C09",
   "status": "proved",
   "theorems": [
    "HBT.Props.C09_flat_lookup",
    "HBT.Props.C09_tables_agree",
    "HBT.Props.C09_reuse"
   ],
   "note": ""
  },
  {
   "property": "C10",
   "status": "proved",
   "theorems": [
    "HBT.Props.C10_batch_lookup",
    "HBT.Props.C10_flat_batch",
    "HBT.Props.C10_needs_sorted_ids",
    "HBT.Props.C10_negative_key_differs"
   ],
   "note": "Query ids ascending and non-negative, as every caller passes them; C10_needs_sorted_ids and C10_negative_key_differs show that both conditions are needed."
  },
  {
   "property": "C11",
   "status": "proved",
   "theorems": [
    "HBT.Props.C11_alltoall",
    "HBT.Props.C11_alltoall_code",
    "HBT.Props.C11_receive_total_overflow"
   ],
   "note": "Up to 2047 ranks with the chunk size of the code; C11_receive_total_overflow shows the int overflow beyond that."
  },
  {
   "property": "C12",
   "status": "proved",
   "theorems": [
    "HBT.Props.C12_bcast",
    "HBT.Props.C12_message_size"
   ],
   "note": ""
  },
  {
   "property": "C13",
   "status": "proved",
   "theorems": [
    "HBT.Props.C13_sync_container",
    "HBT.Props.C13_oversize_stops",
    "HBT.Props.C13_guard_bypassed",
    "HBT.Props.C13_sync_bools",
    "HBT.Props.C13_sync_strings",
    "HBT.Props.C13_newline_splits"
   ],
   "note": "Refusal of oversized containers holds for sizes below 2^32 (C13_oversize_stops) and fails above (C13_guard_bypassed)."
  },
  {
   "property": "C14",
   "status": "proved",
   "theorems": [
    "HBT.Props.C14_walk",
    "HBT.Props.C14_position",
    "HBT.Props.C14_past_end",
    "HBT.Props.C14_reset"
   ],
   "note": ""
  },
  {
   "property": "C15",
   "status": "proved",
   "theorems": [
    "HBT.Props.C15_partition",
    "HBT.Props.C15_too_few_particles",
    "HBT.Props.C15_feeds_query"
   ],
   "note": "At least as many particles as processes; otherwise the code reads the front of an empty vector (C15_too_few_particles). Offsets are unbounded integers (the code uses int)."
  },
  {
   "property": "C16",
   "status": "proved",
   "theorems": [
    "HBT.Props.C16_contiguous_exact"
   ],
   "note": "At least one particle; ids ascending on each rank, as the only caller sorts them first."
  },
  {
   "property": "C17",
   "status": "proved",
   "theorems": [
    "HBT.Props.C17_query",
    "HBT.Props.C17_low_ids_kept_partial",
    "HBT.Props.C17_high_ids_stop"
   ],
   "note": "Ids within the id range of the snapshot; ids above it stop the program (C17_high_ids_stop), ids below it are neither queried nor flagged (C17_low_ids_kept_partial)."
  },
  {
   "property": "C18",
   "status": "proved",
   "theorems": [
    "HBT.Props.C18_restore",
    "HBT.Props.C18_restore_original"
   ],
   "note": ""
  },
  {
   "property": "C19",
   "status": "proved",
   "theorems": [
    "HBT.Props.C19_haloes_conserved",
    "HBT.Props.C19_haloes_conserved_grid"
   ],
   "note": "Halo shells are opaque values; the averaging of coordinates is a parameter."
  },
  {
   "property": "C20",
   "status": "proved",
   "theorems": [
    "HBT.Props.C20_kick_halo",
    "HBT.Props.C20_kick_subhalo",
    "HBT.Props.C20_kick_nothing",
    "HBT.Props.C20_kick_halo_dm_only"
   ],
   "note": ""
  },
  {
   "property": "C21",
   "status": "proved",
   "theorems": [
    "HBT.Props.C21_register",
    "HBT.Props.C21_dense_forever",
    "HBT.Props.C21_ids_persist",
    "HBT.Props.C21_every_track_stays"
   ],
   "note": ""
  },
  {
   "property": "C22",
   "status": "proved",
   "theorems": [
    "HBT.Props.C22_chunks_cover",
    "HBT.Props.C22_chunks_small",
    "HBT.Props.C22_assign_hosts",
    "HBT.Props.C22_lost_particle"
   ],
   "note": "Lookup tables are parameters returning -1 or an index (their correctness is C10/C11). A subhalo whose first particle is nowhere in the snapshot gets host -2, which makes the following table build undefined behaviour (C22_lost_particle)."
  },
  {
   "property": "C23",
   "status": "proved",
   "theorems": [
    "HBT.Props.C23_build",
    "HBT.Props.C23_bad_host",
    "HBT.Props.C23_exactly_once"
   ],
   "note": "std::sort by mass is any function meeting SortsByMass; hosts out of range are undefined behaviour (C23_bad_host)."
  },
  {
   "property": "C24",
   "status": "proved",
   "theorems": [
    "HBT.Props.C24_decide_central",
    "HBT.Props.C24_large_ratio"
   ],
   "note": "Kinetic distance is a parameter; C24_large_ratio covers a mass ratio above one."
  },
  {
   "property": "C25",
   "status": "proved",
   "theorems": [
    "HBT.Props.C25_feed_centrals"
   ],
   "note": ""
  },
  {
   "property": "C26",
   "status": "proved",
   "theorems": [
    "HBT.Props.C26_hierarchy",
    "HBT.Props.C26_never_fails",
    "HBT.Props.C26_during_snapshot",
    "HBT.Props.C26_field_depth_stale"
   ],
   "note": "Proved for every history (inductive History): any number of processes, any redistribution, hosts, groups, births and OpenMP order; masking, unbinding and merging enter as arbitrary steps that keep ids, hosts, ranks and nests, and a sink of this snapshot must be a valid index of an old subhalo. C26_field_depth_stale: the depth of a field subhalo is not reset by the code."
  },
  {
   "property": "C27",
   "status": "proved",
   "theorems": [
    "HBT.Props.C27_mask"
   ],
   "note": "Proved on every reachable state (any History, then Arrival and NestSubhalos), any order of the parallel loop over hosts. Orphans (Nbound<=1) are neither masked nor masking, as in the code."
  },
  {
   "property": "C28",
   "status": "proved",
   "theorems": [
    "HBT.Props.C28_partition",
    "HBT.Props.C28_no_zero",
    "HBT.Props.C28_zero_energy"
   ],
   "note": "PartitionBindingEnergy for every list and ordered energies without NaN: a permutation, bound particles first, the returned count is exact when no energy is zero (C28_zero_energy: with a zero energy the split point may be off by the zero-energy element)."
  },
  {
   "property": "C29",
   "status": "proved",
   "theorems": [
    "HBT.Props.C29_every_snapshot",
    "HBT.Props.C29_every_state",
    "HBT.Props.C29_unbind",
    "HBT.Props.C29_order",
    "HBT.Props.C29_alive_iff",
    "HBT.Props.C29_precision_above_one",
    "HBT.Props.C29_small_minimum"
   ],
   "note": "Unbind for every energy oracle, shuffle, energy sort and source, with BoundMassPrecision<=1 and MinNumPartOfSub>=2 (both needed: C29_precision_above_one, C29_small_minimum); C29_every_snapshot and C29_every_state lift it to all runs."
  },
  {
   "property": "C30",
   "status": "proved",
   "theorems": [
    "HBT.Props.C30_exclusive",
    "HBT.Props.C30_exclusive_output",
    "HBT.Props.C30_conserved",
    "HBT.Props.C30_merging_shares",
    "HBT.Props.C30_consumed_shares"
   ],
   "note": "After unbinding, in every snapshot of every run without consumed particles (DM_ONLY or no accretion). At the end of the snapshot it holds if nothing merged in the host (C30_exclusive_output). Findings: merging can bind a particle twice (C30_merging_shares), and so can consumed particles (C30_consumed_shares). INCLUSIVE_MASS is not modelled."
  },
  {
   "property": "C31",
   "status": "proved",
   "theorems": [
    "HBT.Props.C31_truncate",
    "HBT.Props.C31_small_factor"
   ],
   "note": "TruncateSource for SourceSubRelaxFactor>=1 as exact rational (C31_small_factor shows the bound is needed); float rounding of Nbound*factor is not modelled."
  },
  {
   "property": "C32",
   "status": "proved",
   "theorems": [
    "HBT.Props.C32_merging",
    "HBT.Props.C32_sink_record"
   ],
   "note": "DetectTraps, MergeRecursive, MergeTo and the second unbinding in every run, any sink criterion; C32_sink_record: no stale sink index survives a snapshot."
  },
  {
   "property": "C33",
   "status": "proved",
   "theorems": [
    "HBT.Props.C33_ranks"
   ],
   "note": ""
  },
  {
   "property": "C34",
   "status": "proved",
   "theorems": [
    "HBT.Props.C34_records",
    "HBT.Props.C34_unregistered",
    "HBT.Props.C34_history",
    "HBT.Props.C34_death"
   ],
   "note": "Peak mass, isolation and birth records over all runs (Props/Run: C34_history), death mark (C34_death: states are checked after unbinding and at the end of each snapshot, since a track revived by unbinding and lost again by merging in the same snapshot gets this snapshot as death)."
  },
  {
   "property": "C35",
   "status": "proved",
   "theorems": [
    "HBT.Props.C35_round_trip",
    "HBT.Props.C35_total",
    "HBT.Props.C35_most_bound",
    "HBT.Props.C35_mixed_undetected",
    "HBT.Props.C35_stale_sources_undetected",
    "HBT.Props.C35_overlong_bound"
   ],
   "note": "Save and Load at the level of the H5 datasets (one record per subhalo: scalar members, SubhaloParticles, SrchaloParticles, NestedSubhalos); H5 itself and float conversion are trusted. Particles reload with their ids only, as in the code. Findings: mixtures of two outputs with equal totals are not detected (C35_mixed_undetected, C35_stale_sources_undetected); Nbound>Particles.size() writes past the id buffer (C35_overlong_bound)."
  },
  {
   "property": "C36",
   "status": "proved",
   "theorems": [
    "HBT.Props.C36_throttled",
    "HBT.Props.C36_no_deadlock",
    "HBT.Props.C36_no_endless_wait",
    "HBT.Props.C36_each_once",
    "HBT.Props.C36_zero_unlimited"
   ],
   "note": "The loop over IO turns as a transition system: any number of processes, any interleaving, barrier by specification. MaxConcurrentIO=0 means unlimited in the code (C36_zero_unlimited)."
  },
  {
   "property": "C37",
   "status": "proved",
   "theorems": [
    "HBT.Props.C37_chains",
    "HBT.Props.C37_once"
   ],
   "note": "Exact arithmetic; conversion of floor to int is assumed not to overflow. NDiv>0 and NDiv^3<2^31. C37_once also covers particles outside the box."
  },
  {
   "property": "C38",
   "status": "proved",
   "theorems": [
    "HBT.Props.C38_sphere",
    "HBT.Props.C38_shell",
    "HBT.Props.C38_cylinder",
    "HBT.Props.C38_auto_range",
    "HBT.Props.C38_overflow_finding",
    "HBT.Props.C38_auto_range_finding",
    "HBT.Props.C38_two_boxes_finding"
   ],
   "note": "Sphere, shell and cylinder search, periodic and not, over any ordered field with floor. Radii >= 0; in the periodic case centre and particles in the box and the list built with the box size of the configuration (C38_two_boxes_finding). Findings: duplicates when the search overflows the box, no finds when the range is fitted to the particles and the first one has x>y; shell bounds are exclusive although commented inclusive."
  },
  {
   "property": "C39",
   "status": "proved",
   "theorems": [
    "HBT.Props.C39_samples",
    "HBT.Props.C39_search",
    "HBT.Props.C39_merged"
   ],
   "note": "LinkedlistPara_t (lattice samples, any hand-over order) and Linkedlist_t (block samples, merge in any order of cells) for every number of threads, with a box size (parallel_build asserts one)."
  },
  {
   "property": "C40",
   "status": "proved",
   "theorems": [
    "HBT.Props.C40_components",
    "HBT.Props.C40_small_snapshot_finding"
   ],
   "note": "LinkedlistLinkGroup on the parallel-built list; recursion depth is bounded by the number of particles (stack size is not modelled). Finding C40_small_snapshot_finding: 1 to 99 particles divide by zero."
  },
  {
   "property": "C41",
   "status": "proved",
   "theorems": [
    "HBT.Props.C41_geo_safe",
    "HBT.Props.C41_gravity_safe",
    "HBT.Props.C41_geo_ends",
    "HBT.Props.C41_gravity_ends",
    "HBT.Props.C41_geo_walk",
    "HBT.Props.C41_gravity_walk",
    "HBT.Props.C41_geo_nodes",
    "HBT.Props.C41_gravity_nodes",
    "HBT.Props.C41_potential",
    "HBT.Props.C41_no_self_potential",
    "HBT.Props.C41_direct_sum",
    "HBT.Props.C41_kernel",
    "HBT.Props.C41_binding_energy"
   ],
   "note": "GeoTree_t and GravityTree_t, any particles (coincident included), any random numbers, tree objects reused. Exact arithmetic; masses > 0; TreeNodeResolution = 2 TreeNodeResolutionHalf as ParseConfig sets it. Ends unless the random octants shadow one particle forever (C41_*_ends). Potential and binding energy as sums over clusters; no self-potential for opening angle below 1/sqrt 3."
  },
  {
   "property": "C42",
   "status": "proved",
   "theorems": [
    "HBT.Props.C42_search",
    "HBT.Props.C42_located",
    "HBT.Props.C42_nearest_never_returns",
    "HBT.Props.C42_density",
    "HBT.Props.C42_density_too_few",
    "HBT.Props.C42_density_returns",
    "HBT.Props.C42_kernel",
    "HBT.Props.C42_kernel_support",
    "HBT.Props.C42_density_kernel"
   ],
   "note": "Search, SphDensity and NearestNeighbour of GeoTree_t, periodic and not. Radius >= 0, in the periodic case centre and particles in the box. Finding C42_nearest_never_returns: NearestNeighbour loops forever on every tree; C42_density_too_few: SphDensity does if the tree holds fewer than NumNeighbourSPH particles."
  },
  {
   "property": "C43",
   "status": "proved",
   "theorems": [
    "HBT.Props.C43_groups",
    "HBT.Props.C43_balance",
    "HBT.Props.C43_too_few_particles",
    "HBT.Props.C43_inconsistent_refused",
    "HBT.Props.C43_missing_file_refused"
   ],
   "note": "AssignHaloTasks and Load on all processes; a file is its header count, group lengths and ids (byte layout and file names not modelled). Needs as many particles as processes or none (Complete catalogues); C43_too_few_particles: with fewer particles than processes the code reads FileOffsets[-1]."
  },
  {
   "property": "C44",
   "status": "proved",
   "theorems": [
    "HBT.Props.C44_snapshot",
    "HBT.Props.C44_groups",
    "HBT.Props.C44_placement",
    "HBT.Props.C44_placement_periodic",
    "HBT.Props.C44_refused",
    "HBT.Props.C44_missing_data_finding"
   ],
   "note": "LoadSnapshot and LoadGroups of the Apostle reader with reading, sorting, DecideTargetProcessor, ExchangeHalos and MergeHalos on all processes; a file is its announced numbers and records (HDF5, header and names not modelled), datasets as long as announced. Placement: exact centre without periodic boundary, centre up to box lengths with it. Finding C44_missing_data_finding: announced but missing types leave blank particles (members of group 0)."
  },
  {
   "property": "C45",
   "status": "proved",
   "theorems": [
    "HBT.Props.C45_comment_line",
    "HBT.Props.C45_comment_end",
    "HBT.Props.C45_unknown_rejected",
    "HBT.Props.C45_integer",
    "HBT.Props.C45_switch",
    "HBT.Props.C45_word",
    "HBT.Props.C45_real",
    "HBT.Props.C45_default",
    "HBT.Props.C45_missing_rejected",
    "HBT.Props.C45_id_list",
    "HBT.Props.C45_consistent",
    "HBT.Props.C45_accepted",
    "HBT.Props.C45_need_hash",
    "HBT.Props.C45_derived",
    "HBT.Props.C45_default_values",
    "HBT.Props.C45_max_io_default",
    "HBT.Props.C45_dump_round_trip",
    "HBT.Props.C45_id_lists_accumulate",
    "HBT.Props.C45_empty_value",
    "HBT.Props.C45_carriage_return",
    "HBT.Props.C45_negative_mask",
    "HBT.Props.C45_blank_in_path"
   ],
   "note": "C45_default_values: the value of every optional parameter that is not given; finding C45_max_io_default (documented default of MaxConcurrentIO is not the one used). ParseConfigFile, SetParameterValue, CheckUnsetParameters, ReadSnapshotNameList, DumpParameters on lists of lines. Integer, bool and word extraction from streams is modelled; reals enter through read and print functions (round trip of reals is conditional on read-after-print being the identity; with the default 6 digits of ostream it is not). Findings: id lists accumulate, empty values count as set, a CR-only line is rejected, negative masks and paths with blanks do not survive a dump."
  },
  {
   "property": "C46",
   "status": "proved",
   "theorems": [
    "HBT.Props.C46_rejected",
    "HBT.Props.C46_accepted",
    "HBT.Props.C46_stems",
    "HBT.Props.C46_catalogue_names",
    "HBT.Props.C46_gadget_names",
    "HBT.Props.C46_apostle_names",
    "HBT.Props.C46_negative_index",
    "HBT.Props.C46_name_by_id"
   ],
   "note": "SetSnapshotIndex for every accepted configuration with MinSnapshotIndex>=0 (C46_negative_index: otherwise UB with an id list); names of catalogue files, Gadget files (all conventions, any set of existing files) and Apostle files are injective. Finding C46_name_by_id: names are looked up by id, not index."
  },
  {
   "property": "C47",
   "status": "proved",
   "theorems": [
    "HBT.Props.C47_localize",
    "HBT.Props.C47_globalize",
    "HBT.Props.C47_round_trip"
   ],
   "note": "LocalizeNestedIds and GlobalizeTrackReferences for all distributions; the id table enters through its contract (C08)."
  },
  {
   "property": "C48",
   "status": "proved",
   "theorems": [
    "HBT.Props.C48_vmax",
    "HBT.Props.C48_half",
    "HBT.Props.C48_unresolved",
    "HBT.Props.C48_peak"
   ],
   "note": "CalculateProfileProperties in exact arithmetic with sqrt any increasing function, any sort, masses >= 0, softening > 0. With SofteningHalo = 0 the particle at the centre gives 0/0 in the code; excluded. The index (HBTInt)(Nbound*0.955) is exact."
  },
  {
   "property": "C49",
   "status": "proved",
   "theorems": [
    "HBT.Props.C49_constant_mass",
    "HBT.Props.C49_iterative",
    "HBT.Props.C49_iterative_empty_finding",
    "HBT.Props.C49_bound_size",
    "HBT.Props.C49_stale_finding"
   ],
   "note": "All three functions of src/snapshot.cpp; cube root by its defining equation. Finding C49_stale_finding: if no radius is overdense BoundM200Crit and BoundR200CritComoving keep the values of an earlier snapshot. C49_iterative: ends always; equal to the scan up to 1/(4 tol) particles, otherwise never smaller. C49_iterative_empty_finding: no particles, read outside the array."
  },
  {
   "property": "C50",
   "status": "proved",
   "theorems": [
    "HBT.Props.C50_particles",
    "HBT.Props.C50_count_finding",
    "HBT.Props.C50_second_pass_finding",
    "HBT.Props.C50_narrow_finding"
   ],
   "note": "One pass of the main loop for one target halo on all processes, any arrival order, any map order, sorts by specification; hosts given by the hash (each particle in at most one halo). Reading and writing files not modelled. Findings: C50_count_finding (number of branches wrong by one at every snapshot, for every input), C50_second_pass_finding (Nfound is never broadcast: mismatched MPI_Bcast from the second snapshot on), C50_narrow_finding (32-bit HBTInt truncates MaxBId)."
  },
  {
   "property": "C51",
   "status": "proved",
   "theorems": [
    "HBT.Props.C51_never_fails"
   ],
   "note": "Covers NestSubhalos to UpdateTracks on all processes; the steps before (UpdateParticles, AssignHosts, DecideCentrals, FeedCentrals) enter through what they may change (InputsOk)."
  },
  {
   "property": "C52",
   "status": "proved",
   "theorems": [
    "HBT.Props.C52_too_long",
    "HBT.Props.C52_broadcast",
    "HBT.Props.C52_after_parsing"
   ],
   "note": "BroadCast member by member over all processes (build without ALLOW_BINARY_SYSTEM); MPI_Bcast by its specification. C52_too_long: what cannot be sent stops the program."
  },
  {
   "property": "C53",
   "status": "proved",
   "theorems": [
    "HBT.Props.C53_position_free",
    "HBT.Props.C53_velocity",
    "HBT.Props.C53_position_periodic",
    "HBT.Props.C53_order",
    "HBT.Props.C53_shift",
    "HBT.Props.C53_empty",
    "HBT.Props.C53_may_leave_box"
   ],
   "note": "AveragePosition and AverageVelocity, exact arithmetic, positive masses. Finding C53_may_leave_box: the periodic mean is not wrapped back into the box."
  },
  {
   "property": "C54",
   "status": "proved",
   "theorems": [
    "HBT.Props.C54_types",
    "HBT.Props.C54_bad_type",
    "HBT.Props.C54_null_finding"
   ],
   "note": "CountParticleTypes and CountParticles without DM_ONLY, exact arithmetic for the float masses. Finding C54_null_finding: particles with a null id are skipped up to 100 bound particles and counted above. C54_bad_type: a type outside 0..5 writes outside the tables."
  },
  {
   "property": "C55",
   "status": "proved",
   "theorems": [
    "HBT.Props.C55_periodic",
    "HBT.Props.C55_unresolved",
    "HBT.Props.C55_tensor",
    "HBT.Props.C55_weighted",
    "HBT.Props.C55_coincident_finding"
   ],
   "note": "CalculateShape without the GSL eigenvectors, exact arithmetic, any schedule of the reduction. Finding C55_coincident_finding: a second bound particle exactly at the centre makes the whole weighted tensor not-a-number."
  },
  {
   "property": "C56",
   "status": "proved",
   "theorems": [
    "HBT.Props.C56_unresolved",
    "HBT.Props.C56_averages",
    "HBT.Props.C56_potential",
    "HBT.Props.C56_hubble",
    "HBT.Props.C56_galilean",
    "HBT.Props.C56_centre",
    "HBT.Props.C56_koenig"
   ],
   "note": "AverageKinematics, exact arithmetic, any schedule of the reduction. The energies in the list are an input (the code notes that they come from the previous iteration); C56_potential covers the consistent case."
  },
  {
   "property": "C57",
   "status": "proved",
   "theorems": [
    "HBT.Props.C57_load",
    "HBT.Props.C57_complete",
    "HBT.Props.C57_file",
    "HBT.Props.C57_byte_order",
    "HBT.Props.C57_wrong_box",
    "HBT.Props.C57_wrong_magic",
    "HBT.Props.C57_missing_file",
    "HBT.Props.C57_empty_first_finding",
    "HBT.Props.C57_unsigned_finding",
    "HBT.Props.C57_no_gas_finding",
    "HBT.Props.C57_totals_finding"
   ],
   "note": "GadgetReader_t at byte level, all build variants (DM_ONLY, HAS_THERMAL_ENERGY), decoders of float/double as parameters (exact conversions), records below 2^31 bytes, all files in one byte order. File names and MAJOR_MERGER_PATCH not modelled. Findings: C57_empty_first_finding (division by zero if the first file holds no particles), C57_no_gas_finding (builds with internal energy read past the end of files without gas), C57_totals_finding (header totals that are multiples of 2^32: masses become 0), C57_unsigned_finding (ids from 2^31 on become negative in 32-bit builds)."
  },
  {
   "property": "C58",
   "status": "proved",
   "theorems": [
    "HBT.Props.C58_never_fails",
    "HBT.Props.C58_history",
    "HBT.Props.C58_catalogue",
    "HBT.Props.C58_current",
    "HBT.Props.C58_tracks_stay"
   ],
   "note": "The whole main loop (Model/Main composes the models of the single steps). Inputs as the readers leave them (the readers are C43, C44, C57). Hypotheses: BuildOk (library functions meet their contracts, parameters in range, any distribution of the groups to valid processes, e.g. the grid of C03), SnapInputOk (at least as many particles as processes, distinct non-negative ids, distinct group ids, groups of known particles, P*(chunk+1)<2^31), Persistent (particles stay, or with gas and stars may vanish within the range of ids). A file is written as a whole. A stop in the middle of overwriting an older catalogue is not detected (C35_mixed_undetected), hence sessions start at most at the first incomplete snapshot."
  },
  {
   "property": "C59",
   "status": "proved",
   "theorems": [
    "HBT.Props.C59_restart"
   ],
   "note": "Same model. The schedules and gravity results of both executions are the same functions of the state. With another number of processes the catalogues are still consistent (C58) but the files differ."
  },
  {
   "property": "C60",
   "status": "proved",
   "theorems": [
    "HBT.Props.C60_one_result",
    "HBT.Props.C60_weak",
    "HBT.Props.C60_all_to_all",
    "HBT.Props.C60_bcast",
    "HBT.Props.C60_sync",
    "HBT.Props.C60_sync_oversize",
    "HBT.Props.C60_redistribution",
    "HBT.Props.C60_query",
    "HBT.Props.C60_session",
    "HBT.Props.C60_session_weak"
   ],
   "note": "Every process has its own program (Model/Spmd*), which sees its own data only; Spec/Spmd is a small semantics of the MPI calls used (communicators with split, collectives, non-blocking sends, receives, waits) in which all interleavings are executions. The semantics is proved confluent, and one execution with the result of the all-processes model is constructed. Hypotheses are those of C58. C60_weak and C60_session_weak cover collectives that do not synchronise their members; the readers (C43, C44, C57) and the broadcast of the parameters are outside of the loop that is covered. The fuel is a bound on the number of chunks received from another process; the theorem holds for every sufficiently large one."
  },
  {
   "property": "C61",
   "status": "proved",
   "theorems": [
    "HBT.Props.C61_nest",
    "HBT.Props.C61_mask",
    "HBT.Props.C61_refine",
    "HBT.Props.C61_merge",
    "HBT.Props.C61_update",
    "HBT.Props.C61_centrals",
    "HBT.Props.C61_births_in_any_order",
    "HBT.Props.C61_flag_race"
   ],
   "note": "The loop bodies as programs whose steps are single accesses to shared memory (Model/Threads), Spec/Threads has the semantics of loops, barriers and nowait. Each theorem is for the states of every Run, and its final state is that of the sequential model that C51/C58 use. Sequential consistency: without data races it is what the C++ memory model gives. C61_flag_race: in DetectTraps two threads may write the flag IsMerged of one subhalo at the same time, always with the same value (formally a data race); C61_merge shows that there is no other. C61_centrals: DecideCentrals and FeedCentrals (Model/ThreadsCentrals), for every reachable state of every session; new subhaloes draw their index in a critical section, so the result is that of prepareRank for some order of the haloes, and C61_births_in_any_order shows that the order does depend on the schedule. The loops over particles inside of Unbind, hash tables and exchanges are not covered; with MaxSampleSizeOfPotentialEstimate>0 random_shuffle is one more dependence on the schedule (an input of the model)."
  },
  {
   "property": "C62",
   "status": "proved",
   "theorems": [
    "HBT.Props.C62_files",
    "HBT.Props.C62_layout",
    "HBT.Props.C62_wrong_count",
    "HBT.Props.C62_single_numbered_file",
    "HBT.Props.C62_long_ids_files",
    "HBT.Props.C62_short_ids_file",
    "HBT.Props.C62_unknown_format"
   ],
   "note": "GroupFileReader_t and GadgetGroup::Load at byte level. Fewer than 2^16 files (beyond, the number of files may read the same in both byte orders), counts below 2^31. The printing of directory names and count_pattern_files are not modelled: a directory is a function from place, kind and number to content, and a count. Findings: C62_single_numbered_file (one file with a number in its name: sprintf lacks an argument), C62_short_ids_file (an ids file that ends too early is accepted and missing ids become 0, because fseek clears the end-of-file indicator)."
  },
  {
   "property": "C63",
   "status": "proved",
   "theorems": [
    "HBT.Props.C63_placement",
    "HBT.Props.C63_placement_periodic",
    "HBT.Props.C63_reach",
    "HBT.Props.C63_never_fails",
    "HBT.Props.C63_catalogue",
    "HBT.Props.C63_current",
    "HBT.Props.C63_unknown_format"
   ],
   "note": "Model/Input puts the readers (C57, C62, C44 and C67) in front of the main loop of C58. SnapshotSays and GroupsSay say in terms of the file formats which particles and groups the files hold. Hypotheses: FilesOk (distinct non-negative ids, particles stay, groups of known particles unless both come from the same Apostle files), ProcsOk (not more processes than particles or grouped particles), library functions meet their contracts. HDF5 files are read dataset by dataset (HydroSays: the files a simulation writes, C67), and groups are placed by their centres of mass on the grid of processes (C63_placement, C63_placement_periodic). C63_current: with apostle_particle_index the groups are used with the data they were read with, hence the hypothesis that the particles come from the same files."
  },
  {
   "property": "C64",
   "status": "proved",
   "theorems": [
    "HBT.Props.C64_messages_carry_every_member",
    "HBT.Props.C64_no_byte_is_written_twice",
    "HBT.Props.C64_subhalo_type_overlaps",
    "HBT.Props.C64_apostle_header_overlaps",
    "HBT.Props.C64_gadget_header_lacks_totals",
    "HBT.Props.C64_rank_pairs_match",
    "HBT.Props.C64_table_has_every_member",
    "HBT.Props.C64_particle_table"
   ],
   "note": "Spec/Layout has the layout rule of the C++ ABI (sizes of 64-bit Unix) and the bytes a message with given blocks moves; the lists of members and of registered attributes are in Model/MpiTypes, for every combination of HBT_INT8, HBT_REAL8, DM_ONLY, HAS_THERMAL_ENERGY, HAS_GSL, SAVE_BINDING_ENERGY. The combinations are finite and checked in the kernel; numbers of structures and contents are arbitrary. Same build on all processes and for the file (no conversion of numbers). Findings: C64_subhalo_type_overlaps (MboundType registered as HBTInt: with HBT_INT8 and all particle types the receive type overlaps itself, which MPI forbids; with blocks written in order the data still arrive), C64_apostle_header_overlaps (BoxSize registered twice), C64_gadget_header_lacks_totals (one of six totals sent; the readers use the header of each file instead)."
  },
  {
   "property": "C65",
   "status": "proved",
   "theorems": [
    "HBT.Props.C65_core_velocity",
    "HBT.Props.C65_core_position",
    "HBT.Props.C65_criterion",
    "HBT.Props.C65_test_is_criterion",
    "HBT.Props.C65_spread",
    "HBT.Props.C65_same_in_every_frame",
    "HBT.Props.C65_no_spread_no_sink",
    "HBT.Props.C65_oracle",
    "HBT.Props.C65_first_host"
   ],
   "note": "Model/Sink computes what enters the model of merging (C32, C58) as an oracle; C65_oracle connects the two, so what is proved of runs for every oracle holds for this criterion. Exact arithmetic (the one-pass formula loses digits in float); masses > 0; with periodic boundaries positions in the box and cores less than half a box across. A division by a spread of zero gives an infinity or NaN, which is not less than two. Limit C65_no_spread_no_sink: hosts whose core particles coincide in position or velocity absorb nothing."
  },
  {
   "property": "C66",
   "status": "proved",
   "theorems": [
    "HBT.Props.C66_purge",
    "HBT.Props.C66_front_is_own",
    "HBT.Props.C66_most_bound_demoted",
    "HBT.Props.C66_unbound_front"
   ],
   "note": "PurgeMostBoundParticles alone; the rest of the INCLUSIVE_MASS build (unbinding and merging without masking) is not modelled, the main loop of C58 is of the default build. Findings C66_most_bound_demoted (a most bound particle that is not shared is replaced by the next particle that is not shared: the missing break, src/subhalo_tracking.cpp:587-596) and C66_unbound_front (all source particles are scanned, not the bound ones)."
  },
  {
   "property": "C67",
   "status": "proved",
   "theorems": [
    "HBT.Props.C67_load",
    "HBT.Props.C67_written",
    "HBT.Props.C67_wrong_box",
    "HBT.Props.C67_missing_file_finding",
    "HBT.Props.C67_groups",
    "HBT.Props.C67_no_group_numbers_finding",
    "HBT.Props.C67_wide_ids"
   ],
   "note": "Model/Hydro reads the datasets one by one; C67_load says for all files without datasets longer than announced what is in memory, C67_written and C67_groups draw the consequence for files as written (hydroFile), the latter through C44. HDF5 itself by its specification (whole dataset into the buffer, integers clipped, a missing dataset leaves the buffer); counts non-negative; exact reals. Findings C67_missing_file_finding (a missing file gives uninitialised counts) and C67_no_group_numbers_finding (without GroupNumber all particles form group 0). Datasets that are missing or short read as zero (C67_load)."
  },
  {
   "property": "C68",
   "status": "proved",
   "theorems": [
    "HBT.Props.C68_never_fails",
    "HBT.Props.C68_every_state",
    "HBT.Props.C68_unbound_alone",
    "HBT.Props.C68_merging",
    "HBT.Props.C68_own_particles",
    "HBT.Props.C68_front",
    "HBT.Props.C68_history",
    "HBT.Props.C68_marks",
    "HBT.Props.C68_front_unbound",
    "HBT.Props.C68_shares"
   ],
   "note": "Runs of Model/Inclusive with the same inputs as in Props/Run (RunInclusive). C68_never_fails (exactly one result), C68_every_state, C68_unbound_alone, C68_merging, C68_own_particles, C68_front, C68_history, C68_marks; concrete run in Props/InclusiveExample. Findings: C68_front_unbound (the order bound before unbound is not kept by PurgeMostBoundParticles), C68_shares (particles are shared, as intended). Most-bound coordinates are not part of the states of runs (see C66 for them)."
  },
  {
   "property": "C69",
   "status": "proved",
   "theorems": [
    "HBT.Props.C69_reader",
    "HBT.Props.C69_fresh_run",
    "HBT.Props.C69_stale_files",
    "HBT.Props.C69_negative_index",
    "HBT.Props.C69_parameters",
    "HBT.Props.C69_combined",
    "HBT.Props.C69_number_multi",
    "HBT.Props.C69_fewer_files",
    "HBT.Props.C69_exclusive",
    "HBT.Props.C69_exclusive_partition"
   ],
   "note": "Model/Reader is toolbox/HBTReader.py (without group Cosmology, messages, column selection) and combineSubSnap.py; an exception is abort. C69_reader: any sequence of sessions (Reach of C58) that leaves P files for every snapshot and nothing else (UniformRoot); C69_fresh_run: one session in an empty directory, where this is proved and not assumed. C69_combined for dense TrackIds and any argsort; C69_exclusive, C69_exclusive_partition for any stable sort; C69_parameters through C45. Findings: C69_number_multi (GetNumberOfSubhalos fails), C69_fewer_files (silently truncated after a restart with fewer processes), C69_stale_files (old files are read as part of the catalogue), C69_negative_index."
  },
  {
   "property": "C70",
   "status": "proved",
   "theorems": [
    "HBT.Props.C70_unbind",
    "HBT.Props.C70_never_fails",
    "HBT.Props.C70_catalogue",
    "HBT.Props.C70_history",
    "HBT.Props.C70_tracks_stay",
    "HBT.Props.C70_restart"
   ],
   "note": "Model/NoStrip is the build HBT.nostrip (NO_STRIPPING, one line of Unbind) with everything that calls Unbind repeated. Lemmas/NoStrip: with BoundMassPrecision at most 1 it does what the main build does when every energy is mapped, in order, to a negative one; so C58 and C59 carry over. C70_unbind states the result of Unbind directly; C70_catalogue that all particles are bound in every catalogue that any sequence of sessions leaves; C70_history gives the run without interruption to which everything proved of Run applies."
  },
  {
   "property": "C71",
   "status": "proved",
   "theorems": [
    "HBT.Props.C71_range",
    "HBT.Props.C71_default",
    "HBT.Props.C71_whole_run",
    "HBT.Props.C71_parameters",
    "HBT.Props.C71_one_number",
    "HBT.Props.C71_more_arguments",
    "HBT.Props.C71_usage",
    "HBT.Props.C71_split",
    "HBT.Props.C71_before_first",
    "HBT.Props.C71_after_last",
    "HBT.Props.C71_not_a_number",
    "HBT.Props.C71_text_after_number"
   ],
   "note": "Model/Program is main() from the command line on (atoi, ParseHBTParams, BroadCast, Load, the loop with SetSnapshotIndex and isnap++ in int, DumpParameters), composed of the models of C45, C46, C52 and C58; messages and timing.log are left out. What the readers of a snapshot give is a function of the index (C63 and C67 prove it of the readers). C71_range, C71_default, C71_one_number, C71_more_arguments, C71_split, C71_whole_run, C71_parameters, C71_usage, C71_before_first, C71_after_last; findings C71_not_a_number, C71_text_after_number. Setting needs MaxSnapshotIndex below 2^31-1: otherwise isnap++ overflows."
  },
  {
   "property": "C72",
   "status": "proved",
   "theorems": [
    "HBT.Props.C72_full_groups",
    "HBT.Props.C72_range",
    "HBT.Props.C72_catalogues",
    "HBT.Props.C72_unknown_format"
   ],
   "note": "Model/ProgramFiles: Model/Program with the readers of Model/Input (C63), which take formats, box, id options and mask from the configuration. C72_catalogues is the statement for a start with the parameter file alone, C72_range for a range after any history of starts; C72_full_groups: whether groups bring particle data follows from the format; C72_unknown_format. The example goes from the bytes of two big-endian Gadget snapshots with group files and the text of a parameter file to the catalogue. The HDF5 reader takes box, periodicity and the compile-time switches from the same configuration."
  },
  {
   "property": "C73",
   "status": "proved",
   "theorems": [
    "HBT.Props.C73_lists",
    "HBT.Props.C73_no_redshift"
   ],
   "note": "Model/SnapList: the three lists, over any content of the directory. float(), os.access and os.listdir are parameters; sorted() any stable sort (sortsDown_mergeSort shows one); np.unique(return_index) as the first index of each value. NaN redshifts are not modelled (keys are linearly ordered)."
  },
  {
   "property": "C74",
   "status": "proved",
   "theorems": [
    "HBT.Props.C74_virial",
    "HBT.Props.C74_fewer_groups_than_announced",
    "HBT.Props.C74_unknown_kind",
    "HBT.Props.C74_not_subfind",
    "HBT.Props.C74_more_groups_than_announced"
   ],
   "note": "Model/Virial on the byte-level models of C62. C74_virial: all subfind catalogues whose counts fit; C74_more_groups_than_announced is a finding (undefined behaviour). The vectors passed are taken to be empty."
  },
  {
   "property": "C75",
   "status": "proved",
   "theorems": [
    "HBT.Props.C75_wrap",
    "HBT.Props.C75_wrap_nonneg",
    "HBT.Props.C75_wrap_reaches_edge",
    "HBT.Props.C75_nearest",
    "HBT.Props.C75_separation",
    "HBT.Props.C75_grid",
    "HBT.Props.C75_loops",
    "HBT.Props.C75_source",
    "HBT.Props.C75_keeps",
    "HBT.Props.C75_source_large",
    "HBT.Props.C75_source_loses",
    "HBT.Props.C75_stops",
    "HBT.Props.C75_converges",
    "HBT.Props.C75_converged",
    "HBT.Props.C75_exact",
    "HBT.Props.C75_truncate",
    "HBT.Props.C75_sums_nonneg",
    "HBT.Props.C75_count",
    "HBT.Props.C75_average",
    "HBT.Props.C75_run"
   ],
   "note": "Spec/Rounding (formats of p binary digits with unbounded exponents, rounding to nearest with any rule for ties), Model/Rounded (the mixed functions, with rounding after each operation). C75_exact and C75_truncate tie them to the functions of the rest of the model; C75_stops and C75_keeps give what the theorems about unbinding and runs assume of the rounding. Model/SingleMass: masses in single precision with the sums of CountParticles and AverageVelocity; C75_run applies the theorems about runs to them. Underflow, overflow and infinities are not modelled; moments and the octree are exact in the model."
  },
  {
   "property": "C76",
   "status": "proved",
   "theorems": [
    "HBT.Props.C76_unbinding",
    "HBT.Props.C76_unbinding_periodic",
    "HBT.Props.C76_tree_exact",
    "HBT.Props.C76_instance",
    "HBT.Props.C76_stale_frame"
   ],
   "note": "C76_unbinding and C76_unbinding_periodic: the whole of Unbind against the relation Unbinds of Spec/Binding (UnbindsWithin without errors), under the condition hbr on the sequence of iterations; C76_stale_frame shows that the condition is needed (finding). C76_tree_exact: the octree at opening angle 0 is one of the solvers. C76_instance: every run with computed energies is a run of the model used for C20-C34 and whole runs. Energies are exact; potentials from a sample of the particles are modelled, but only C76_instance is about them."
  },
  {
   "property": "C77",
   "status": "proved",
   "theorems": [
    "HBT.Props.C77_potential",
    "HBT.Props.C77_at_particle",
    "HBT.Props.C77_binding_energy",
    "HBT.Props.C77_tree_near",
    "HBT.Props.C77_unbinding",
    "HBT.Props.C77_unbinding_periodic"
   ],
   "note": "C77_potential, C77_at_particle, C77_binding_energy: relative error s for every s < 1 with 3 angle^2 <= s^2, against the direct sum with the exact spline (Spec/Spline). Uses C41 (the clusters) and that the spline u -> kernel(u) falls and u -> u kernel(u) rises (Lemmas/Spline). C77_tree_near, C77_unbinding, C77_unbinding_periodic: the loop of unbinding with this tree against UnbindsWithin (Spec/Binding), under the condition hbr of C76. Exact arithmetic in an ordered field with square roots."
  },
  {
   "property": "C78",
   "status": "proved",
   "theorems": [
    "HBT.Props.C78_friedmann",
    "HBT.Props.C78_today",
    "HBT.Props.C78_overdensity",
    "HBT.Props.C78_virial_factors",
    "HBT.Props.C78_one_header",
    "HBT.Props.C78_header",
    "HBT.Props.C78_reload",
    "HBT.Props.C78_range",
    "HBT.Props.C78_whole_run",
    "HBT.Props.C78_rounded_reload",
    "HBT.Props.C78_reader"
   ],
   "note": "Model/Cosmology beside Model/ProgramFiles: the inputs of a snapshot (energies and so on) may depend on the cosmology of each process, and C78_range and C78_whole_run show the run equal to one of C72 with the cosmology of the header. Exact arithmetic with square roots in C78_friedmann to C78_virial_factors; elsewhere any rounding of what is stored. C78_rounded_reload is a finding."
  },
  {
   "property": "C79",
   "status": "proved",
   "theorems": [
    "HBT.Props.C79_energies",
    "HBT.Props.C79_merge",
    "HBT.Props.C79_disrupted_energy",
    "HBT.Props.C79_written",
    "HBT.Props.C79_reader",
    "HBT.Props.C79_from_unbinding",
    "HBT.Props.C79_refine",
    "HBT.Props.C79_merged",
    "HBT.Props.C79_run",
    "HBT.Props.C79_run_energy",
    "HBT.Props.C79_purge_disorder"
   ],
   "note": "Model/OptionalOutput beside Model/Unbind, Model/Catalogue and Model/Reader. C79_energies also shows that the subhalo is the one of the model without energies. C79_refine, C79_merged and C79_run (Model/StoredEnergies) take the energies through whole snapshots of any run without INCLUSIVE_MASS, up to the moment the catalogue is written. C79_disrupted_energy and C79_purge_disorder are findings."
  },
  {
   "property": "C80",
   "status": "proved",
   "theorems": [
    "HBT.Props.C80_refined_rounded",
    "HBT.Props.C80_refined",
    "HBT.Props.C80_in_sample",
    "HBT.Props.C80_sampled",
    "HBT.Props.C80_unbiased",
    "HBT.Props.C80_tree",
    "HBT.Props.C80_unbinding_tree",
    "HBT.Props.C80_unbinding_tree_periodic",
    "HBT.Props.C80_unbinding_rounded",
    "HBT.Props.C80_unbinding",
    "HBT.Props.C80_unbinding_rounded_periodic",
    "HBT.Props.C80_unbinding_periodic",
    "HBT.Props.C80_float"
   ],
   "note": "Model/UnbindEnergy (fullEnergies), Spec/Sample. C80_sampled, C80_unbiased: about the first iteration, as what later iterations start from depends on the sample. C80_unbinding_rounded, C80_unbinding_rounded_periodic: the same with energies rounded when stored (C80_float: rounding to nearest meets the hypothesis); the arithmetic before that is exact. C80_unbinding, C80_unbinding_periodic: all iterations, up to the errors of the samples actually taken, with the condition on iterations of C76 (stale frames). C80_in_sample is a finding: the bias for particles of the sample. C80_tree: the octree with opening angle 0 meets the hypotheses on the solver. C80_unbinding_tree, C80_unbinding_tree_periodic: the octree at any opening angle below 1/sqrt 3 together with samples and rounding. C80_refined_rounded, C80_refined: the order after refinement, with energies rounded or not; thermal energy is left out of this order, as in the code."
  }
 ]
}