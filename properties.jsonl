{"id": "C01", "title": "Offsets of concatenated blocks tile the buffer", "statement": "Given block sizes, the offset table tells where each block starts: offset[i] is the sum of the sizes before i, the returned total is the sum of all sizes, and the segments [offset[i], offset[i]+size[i]) are disjoint, in order, and cover exactly [0,total).", "quantifier": "every list of non-negative block sizes, of any length", "why_tests_cant": "Holds for all lengths and sizes; every MPI displacement table and file offset relies on it.", "anchors": ["src/mymath.h: CompileOffsets", "src/mymath.cpp: compile_offset"]}
{"id": "C02", "title": "Work is split among workers completely, disjointly and fairly", "statement": "Splitting ntask items over nworkers gives each worker a contiguous range; ranges of successive workers are adjacent, start at 0, end at ntask, never overlap, and sizes differ by at most one (earlier workers get the larger share as the code documents).", "quantifier": "every number of tasks, every positive number of workers, every worker rank", "why_tests_cant": "A test can only sample (ntask, nworkers) pairs; a single lost file/particle range corrupts a run.", "anchors": ["src/mymath.cpp: AssignTasks", "src/io/gadget_io.cpp", "src/io/apostle_io.cpp", "src/io/subhalo_io.cpp: Load"]}
{"id": "C03", "title": "Domain decomposition maps every position to a valid process", "statement": "The per-axis process counts chosen for P processes multiply exactly to P, and any position (even one outside the box or on its upper face) is mapped to a process rank in [0,P); distinct grid cells map to distinct ranks.", "quantifier": "every P>=1, every number of axes, every real position and positive cell size", "why_tests_cant": "All process counts and all positions, including boundary values.", "anchors": ["src/mymath.cpp: LargestRootFactor, ClosestFactors, GetGrid, AssignCell", "src/particle_exchanger.h: DecideTargetProcessor"]}
{"id": "C04", "title": "Periodic wrapping and minimum-image distance", "statement": "Wrapping a coordinate returns the unique representative in [0,L) congruent to it modulo L; the minimum-image displacement of two wrapped coordinates has modulus at most L/2, is congruent to the true displacement, is of minimal modulus among all images, and is antisymmetric in modulus, so periodic distances are symmetric.", "quantifier": "every coordinate, every positive box size", "why_tests_cant": "Range over all reals; boundary cases (exact multiples, negative values, half-box separations).", "anchors": ["src/mymath.h: position_modulus", "src/config_parser.h: NEAREST, PeriodicDistance"]}
{"id": "C05", "title": "Endianness conversion is an exact byte reversal", "statement": "Swapping the byte order of n items of m bytes reverses the bytes of each item, leaves item boundaries alone, and doing it twice restores the data, for the specialised sizes 1, 2, 4 and the generic path alike.", "quantifier": "every byte buffer, every item size m and item count n", "why_tests_cant": "All sizes and all byte values; specialised and generic code paths must agree.", "anchors": ["src/mymath.cpp: swap_Nbyte", "src/mymath.h: fread_swap"]}
{"id": "C06", "title": "Selection places the k smallest items first", "statement": "Selecting the k smallest of an array rearranges it in place, without losing or inventing elements, so that nothing in the first k exceeds anything after, and the returned element is the k-th smallest.", "quantifier": "every array, every valid k", "why_tests_cant": "All arrays including ties; loop termination must hold on every input.", "anchors": ["src/mymath.cpp: psort"]}
{"id": "C07", "title": "Fortran unformatted records are read exactly", "statement": "Reading part of a record delivers exactly the requested slice of its payload and leaves the stream at the start of the next record; a record whose leading and trailing markers disagree is rejected rather than accepted.", "quantifier": "every stream of well formed records, every record size, every slice; and every corrupted trailing marker", "why_tests_cant": "All record sizes and positions; robustness to corruption is an all-inputs claim.", "anchors": ["src/mymath.h: FortranBlock", "src/mymath.cpp: SkipFortranBlock"]}
{"id": "C08", "title": "Sorted-table particle lookup returns the right slot", "statement": "After filling the sorted lookup table with distinct non-negative ids, looking up an id returns the index registered with it if the id was in the list and the null index otherwise; negative ids always give the null index.", "quantifier": "every list of keys with distinct ids (any order, any length), every queried id", "why_tests_cant": "Binary search correctness for every table length and every key.", "anchors": ["src/hash.tpp: MappedIndexTable_t::Fill, GetIndex", "src/hash.h"]}
{"id": "C09", "title": "Flat-array lookup agrees with sorted-table lookup", "statement": "The direct-address table returns, for every query in or out of its id range, the same answer as the sorted table; users can toggle ParticleIdNeedHash without changing results; array accesses stay inside the allocated span.", "quantifier": "every list of distinct non-negative ids, every query", "why_tests_cant": "Equivalence of two implementations on all inputs.", "anchors": ["src/hash.tpp: FlatIndexTable_t::Fill, GetIndex", "src/snapshot.h: ParticleSnapshot_t"]}
{"id": "C10", "title": "Batch lookup equals one-by-one lookup", "statement": "Looking up a whole ascending list of ids by the divide-and-conquer batch search gives, element by element, what individual lookups give, duplicates in the query included; every recursive call stays inside the table.", "quantifier": "every table with distinct ids, every ascending query list of any length", "why_tests_cant": "Recursion splits both lists; must hold for all splits, sizes, duplicates and missing ids.", "anchors": ["src/hash_remote.tpp: MappedIndexTable_t::GetIndices, GetIndicesRecursive"]}
{"id": "C11", "title": "Chunked all-to-all delivers every message intact", "statement": "The chunked all-to-all exchange delivers to every process, from every process, exactly the sequence addressed to it, in order, whatever the volumes; the staging buffer never overflows; no chunk depends on the chunk size chosen.", "quantifier": "every number of processes, every matrix of message lengths and contents", "why_tests_cant": "Multi-chunk paths need >1M particles and every remainder pattern; correctness is for all volumes.", "anchors": ["src/mpi_wrapper.h: MyAllToAll"]}
{"id": "C12", "title": "Chunked broadcast delivers the root's data intact", "statement": "The chunked broadcast leaves on every process exactly the root's sequence, whatever its length.", "quantifier": "every length and content, every root, every number of processes", "why_tests_cant": "Remainder handling over all lengths.", "anchors": ["src/mpi_wrapper.h: MyBcast"]}
{"id": "C13", "title": "Configuration and name-list broadcast reproduces the root's values", "statement": "After the configuration broadcast every process holds the same parameter values as the root, including the list of snapshot names, provided no name contains a newline; oversized containers are refused.", "quantifier": "every configuration, every list of newline-free names, every container size", "why_tests_cant": "Serialisation round trip over all string lists; overflow guards hold only beyond 2^31 elements, which tests never allocate.", "anchors": ["src/config_parser.cpp: BroadCast", "src/mpi_wrapper.cpp: SyncVectorString, SyncVectorBool", "src/mpi_wrapper.h: SyncContainer"]}
{"id": "C14", "title": "Iterating over a bunch of haloes visits every particle once, in order", "statement": "Walking the particles (or nested-subhalo lists) of a range of haloes visits each element exactly once in halo order, skipping empty haloes anywhere in the range.", "quantifier": "every sequence of haloes with any pattern of empty lists", "why_tests_cant": "All patterns of empties at the beginning, middle and end.", "anchors": ["src/halo_particle_iterator.h: HaloParticleIterator_t, HaloNestIterator_t"]}
{"id": "C15", "title": "Particles are partitioned over processes without loss", "statement": "After redistribution each snapshot particle is on exactly one process, each process holds exactly the ids of its advertised id range, the ranges are ordered and disjoint and cover all ids, and a process's particles are sorted by id.", "quantifier": "every particle set with distinct ids, every number of processes, every initial distribution", "why_tests_cant": "All distributions of ids over processes, incl. skewed ones, must be handled.", "anchors": ["src/snapshot_exchanger.cpp: PartitionParticles, ExchangeParticles, ParallelStride_t", "src/mymath.cpp: CompileOffsets"]}
{"id": "C16", "title": "Contiguous-id detection is exact", "statement": "The snapshot is declared contiguous exactly when its distinct ids fill an interval, and every process reaches the same verdict.", "quantifier": "every global set of distinct ids, every distribution, every number of processes", "why_tests_cant": "Collective decision must agree on every process for all inputs.", "anchors": ["src/snapshot_exchanger.cpp: IsContiguousId"]}
{"id": "C17", "title": "Particle query returns current properties in the original order", "statement": "Updating the particles of a set of haloes keeps, for each halo, its particle sequence and order, and gives each particle the properties recorded for its id in the current snapshot; particles absent from the snapshot are flagged null.", "quantifier": "every set of haloes on every process, every snapshot, every id distribution over processes", "why_tests_cant": "Sort by id, cut by ranges, exchange, look up, return and restore order must compose to a simple map for every input.", "anchors": ["src/particle_exchanger.h: ParticleExchanger_t (CollectParticles, SendParticles, QueryParticles, RecvParticles, RestoreParticles), RestoreParticleOrder"]}
{"id": "C18", "title": "Restoring the original order is an in-place permutation inverse", "statement": "Given records each tagged with its original position, the in-place restoration puts record tagged i at position i, loses nothing and terminates.", "quantifier": "every permutation of every length", "why_tests_cant": "Cycle-chasing loop must terminate and be right for every permutation.", "anchors": ["src/particle_exchanger.h: RestoreParticleOrder"]}
{"id": "C19", "title": "Moving haloes between processes conserves them", "statement": "After halo redistribution each halo, with its id and its full particle list in order, is on exactly one process: the one its centre maps to.", "quantifier": "every distribution of haloes over every number of processes", "why_tests_cant": "Conservation over all distributions and counts.", "anchors": ["src/particle_exchanger.h: DecideTargetProcessor, ParticleSnapshot_t::ExchangeHalos"]}
{"id": "C20", "title": "Consumed particles are removed and nothing else", "statement": "Removing consumed (null) particles from a subhalo keeps all other particles in order, and the bound count becomes the number of survivors among the previously bound ones.", "quantifier": "every particle list and every bound count not exceeding its length", "why_tests_cant": "In-place compaction over all patterns of nulls.", "anchors": ["src/subhalo.cpp: Subhalo_t::KickNullParticles, CountParticles", "src/halo.cpp: Halo_t::KickNullParticles"]}
{"id": "C21", "title": "TrackIds are unique and dense for ever", "statement": "At the end of every snapshot the TrackIds over all processes are exactly 0..N-1, each held by one subhalo; an existing subhalo never changes its TrackId; new ones get the next ids.", "quantifier": "every history of snapshots with arbitrary births, fakes, deaths and migrations between any number of processes", "why_tests_cant": "An invariant over unbounded histories and process layouts.", "anchors": ["src/subhalo_tracking.cpp: RegisterNewTracks", "src/io/subhalo_io.cpp: Load"]}
{"id": "C22", "title": "Host assignment finds the halo containing the track particle and loses no subhalo", "statement": "Assigning hosts places each subhalo on exactly one process; if its most-bound particle is in a halo it ends on the process owning that halo with that halo as host; if it is in no halo it becomes a field subhalo (on the process holding the particle); no subhalo is lost or duplicated.", "quantifier": "every distribution of subhaloes and haloes over every number of processes, every chunking of the scatter", "why_tests_cant": "Needs all layouts, ties of the reduction and chunk boundaries.", "anchors": ["src/subhalo_tracking.cpp: GetLocalHostId, FindLocalHosts, FindOtherHosts, FindOtherHostsSafely, AssignHosts"]}
{"id": "C23", "title": "The membership table lists each subhalo once under its host", "statement": "Building the table puts every subhalo (or every non-orphan) in exactly one list, that of its host, with field subhaloes in the special list; lists are stored without overlap and writes never leave the storage; each list is ordered by decreasing mass.", "quantifier": "every list of subhaloes with hosts in range; out-of-range hosts are undefined behaviour and reported as such", "why_tests_cant": "Bucketed storage layout for all host patterns.", "anchors": ["src/subhalo_tracking.cpp: MemberShipTable_t::Init, CountMembers, BindMemberLists, FillMemberLists, SortMemberLists, Build"]}
{"id": "C24", "title": "The central is the kinematically closest of the major progenitors", "statement": "In each host the subhalo chosen as central has mass at least the configured fraction of the most massive one and has the smallest kinetic distance among those; the member list keeps the same members.", "quantifier": "every host group, every mass and distance assignment (ties included), every mass ratio", "why_tests_cant": "Decision logic over all real masses and distances.", "anchors": ["src/subhalo_tracking.cpp: SubhaloSnapshot_t::DecideCentrals"]}
{"id": "C25", "title": "Every halo gets exactly one central holding all its particles", "statement": "After feeding centrals every host halo has exactly one central whose particle list is the halo's particle set, with the previous most-bound particle first when it is in the halo; haloes without progenitor get one new subhalo each, under every thread schedule.", "quantifier": "every group configuration and every interleaving of the threads creating new subhaloes", "why_tests_cant": "All thread schedules of the critical section.", "anchors": ["src/subhalo_tracking.cpp: SubhaloSnapshot_t::FeedCentrals, MemberShipTable_t::CountEmptyGroups"]}
{"id": "C26", "title": "The nesting hierarchy is always a forest", "statement": "At the end of every snapshot the nested-subhalo lists form, in each host halo, a tree rooted at the central that contains each member of the host exactly once; field subhaloes nest nothing; the depth recorded is the depth in that tree and recursion over the hierarchy terminates.", "quantifier": "every history of host changes, mass reorderings, births and promotions", "why_tests_cant": "Unbounded histories; a single cycle makes unbinding recurse for ever.", "anchors": ["src/subhalo_tracking.cpp: LocalizeNestedIds, LevelUpDetachedSubhalos, LevelUpDetachedMembers, NestSubhalos, ExtendCentralNest, FillDepth, FillDepthRecursive, GlobalizeTrackReferences"]}
{"id": "C27", "title": "Masking makes source particles exclusive inside a host without losing any", "statement": "After masking, no particle belongs to the source of two resolved subhaloes of the same host nor twice to one, deeper subhaloes having priority over the ones containing them, and every particle of a resolved member is still in some member's source.", "quantifier": "every hierarchy and every particle assignment", "why_tests_cant": "Recursive mutation with a shared exclusion set, for all trees.", "anchors": ["src/subhalo_tracking.cpp: SubhaloMasker_t::Mask, MaskSubhalos"]}
{"id": "C28", "title": "Partition by binding energy", "statement": "Partitioning particles by energy permutes the list, returns a count n such that every particle at or after n has non-negative energy and every particle before n has non-positive energy; if no energy is exactly zero, exactly the negative-energy particles come first.", "quantifier": "every energy list", "why_tests_cant": "In-place two-pointer algorithm on all inputs, including energies equal to zero.", "anchors": ["src/subhalo_unbind.cpp: PartitionBindingEnergy, PopMostBoundParticle"]}
{"id": "C29", "title": "Unbinding terminates and leaves a consistent subhalo", "statement": "For every potential, unbinding terminates, keeps the particle set, ends either resolved (at least MinNumPartOfSub bound particles, ordered by energy, first) or as an orphan of one particle which is the previous most-bound particle, and the death/sink marks are set accordingly.", "quantifier": "every particle list and every sequence of energy evaluations (any gravity solver)", "why_tests_cant": "Unbounded iteration with arbitrary energies; termination for all inputs.", "anchors": ["src/subhalo_unbind.cpp: Subhalo_t::Unbind"]}
{"id": "C30", "title": "Bound particles are exclusive within a host after unbinding", "statement": "After unbinding a host, no particle is bound to two resolved subhaloes of that host.", "quantifier": "every hierarchy, every exclusive particle assignment, every energy evaluation", "why_tests_cant": "Recursive feed of unbound particles through arbitrary trees.", "anchors": ["src/subhalo_unbind.cpp: RecursiveUnbind, RefineParticles", "src/subhalo_merge.cpp: MergeTo"]}
{"id": "C31", "title": "Source truncation never cuts bound particles", "statement": "Truncating the source keeps a prefix of the particle list at least as long as the bound part and at most SourceSubRelaxFactor times as long; orphans keep exactly their one particle.", "quantifier": "every particle list, bound count and relax factor >= 1", "why_tests_cant": "All factor/size combinations.", "anchors": ["src/subhalo_unbind.cpp: TruncateSource"]}
{"id": "C32", "title": "Merging a trapped subhalo conserves its particles", "statement": "Merging a trapped subhalo appends to its sink each of its particles that the sink does not already have, exactly once; the merged subhalo becomes an orphan; the sink is a proper ancestor in the hierarchy and is resolved, and the merge always refers to an existing subhalo.", "quantifier": "every pair of particle lists, every hierarchy, every history of traps", "why_tests_cant": "History property: stale sink ids from earlier snapshots must never be used as indices.", "anchors": ["src/subhalo_merge.cpp: DetectTraps, FillHostTrackIds, MergeRecursive, MergeTo, MergeSubhalos"]}
{"id": "C33", "title": "Ranks order members by mass", "statement": "At the end of a snapshot the member of each host with rank r is the r-th most massive; ranks of a host with n members are exactly 0..n-1; field subhaloes have rank 0.", "quantifier": "every host group and mass assignment", "why_tests_cant": "All groups, with ties.", "anchors": ["src/subhalo_tracking.cpp: AssignRanks, SortMemberLists, UpdateTracks"]}
{"id": "C34", "title": "Peak-mass, isolation and death records are faithful to history", "statement": "After any sequence of snapshots LastMaxMass is the maximum of the masses so far (from zero) and its snapshot index is the latest snapshot attaining it; the isolation index is the latest snapshot with rank 0; the death index is set exactly when the subhalo is unresolved and is the first snapshot of the current unresolved stretch.", "quantifier": "every history of masses, ranks and resolution states", "why_tests_cant": "Fold over unbounded histories.", "anchors": ["src/subhalo_tracking.cpp: Subhalo_t::UpdateTrack", "src/subhalo_unbind.cpp: Unbind", "src/subhalo.cpp: CalculateProfileProperties"]}
{"id": "C35", "title": "Saved catalogues reload identically on any number of processes", "statement": "Reloading a saved catalogue, with any number of reading processes, gives the concatenation of the saved subhaloes in order, with their particle ids (source or bound prefix, as requested) and nested TrackIds; files whose subhaloes do not add up to the recorded total are rejected.", "quantifier": "every catalogue, every number of writers and readers", "why_tests_cant": "Round trip over all layouts.", "anchors": ["src/io/subhalo_io.cpp: Save, WriteFile, Load, ReadFile", "src/mymath.cpp: AssignTasks"]}
{"id": "C36", "title": "Concurrent IO is throttled and cannot deadlock on its barriers", "statement": "In every schedule, no more than MaxConcurrentIO processes are reading or writing at once, every process performs its IO exactly once, and no process waits for ever at a barrier.", "quantifier": "every interleaving of the processes, every number of processes, every positive limit", "why_tests_cant": "All schedules.", "anchors": ["src/io/subhalo_io.cpp: Save, Load", "src/io/apostle_io.cpp: LoadSnapshot, LoadGroups", "src/io/gadget_io.cpp: Load"]}
{"id": "C37", "title": "The cell-linked list contains every particle in the cell of its position", "statement": "After building, following the chain of a cell visits exactly the particles whose position lies in that cell, each once, and terminates.", "quantifier": "every particle set inside the box and every grid", "why_tests_cant": "All particle sets and grids.", "anchors": ["src/linkedlist_base.cpp: init, build", "src/linkedlist_base.h: Sub2Ind, FixGridId"]}
{"id": "C38", "title": "Sphere search returns exactly the particles within the radius", "statement": "A sphere search reports a particle if and only if its (periodic) distance to the centre is below the radius.", "quantifier": "every particle set, centre, radius and grid; periodic or not", "why_tests_cant": "Geometric completeness over reals; wrap-around cases.", "anchors": ["src/linkedlist_base.cpp: SearchSphere, SearchShell, SearchCylinder"]}
{"id": "C39", "title": "The parallel linked list equals the serial one", "statement": "Splitting particles over threads, building one list per thread and searching or merging them gives the same set of particles as the serial list, for both sampling schemes.", "quantifier": "every particle set and number of threads", "why_tests_cant": "All thread counts and remainders.", "anchors": ["src/linkedlist.h: PositionSampleLattice_t, PositionSampleBlock_t, LinkedlistPara_t", "src/linkedlist.cpp: parallel_build, merge"]}
{"id": "C40", "title": "Friends-of-friends groups are the connected components", "statement": "Two particles get the same group label if and only if a chain of links shorter than the linking length joins them.", "quantifier": "every particle set and linking length", "why_tests_cant": "Reachability over unbounded chains.", "anchors": ["src/linkedlist.cpp: LinkedlistLinkGroup", "src/linkedlist_base.cpp: TagFriendsOfFriends"]}
{"id": "C41", "title": "The tree holds every particle once and node masses add up", "statement": "After building, each particle is in exactly one leaf slot, the walk order visits every particle, and each node's mass is the total of its particles.", "quantifier": "every particle set of size >= 1 and every allocation that suffices", "why_tests_cant": "All particle configurations incl. coincident particles.", "anchors": ["src/oct_tree.tpp: Build, AppendCell", "src/gravity_tree.cpp: UpdateInternalNodes, ProcessNode"]}
{"id": "C42", "title": "Tree neighbour search is complete", "statement": "A tree search reports every particle within the radius; node pruning never discards a particle that qualifies.", "quantifier": "every particle set, centre and radius", "why_tests_cant": "Geometric pruning over reals.", "anchors": ["src/geometric_tree.cpp: Search, NearestNeighbour", "src/datatypes.h: NearestNeighbourCollector_t"]}
{"id": "C43", "title": "Each group of a group catalogue is read by exactly one process", "statement": "Distributing a group catalogue over processes assigns each group with at least one particle to exactly one process, in order, with its own particle slice.", "quantifier": "every catalogue (any group sizes including zero), any number of files and processes", "why_tests_cant": "Boundary conditions over all size lists.", "anchors": ["src/io/gadget_group_io.cpp: AssignHaloTasks, Load"]}
{"id": "C44", "title": "Group and snapshot records loaded from hydro snapshots are conserved", "statement": "Loading groups from per-particle group numbers gives, over all processes, one halo per group number, holding exactly the particles carrying it; ungrouped particles are excluded.", "quantifier": "every assignment of group numbers to particles over files and processes", "why_tests_cant": "Sort, exchange and merge for all inputs.", "anchors": ["src/io/apostle_io.cpp: LoadGroups, DecideTargetProcessor, MergeHalos, ReadHeader"]}
{"id": "C45", "title": "Configuration files are parsed as documented", "statement": "Comments and blank lines never change the configuration; unknown keys are rejected; a configuration missing a compulsory key is rejected; later values override earlier ones (lists of snapshot ids are joined); dumping the integer, boolean and string parameters and reading the dump back reproduces them.", "quantifier": "every sequence of configuration lines", "why_tests_cant": "All line sequences.", "anchors": ["src/config_parser.cpp: SetParameterValue, ParseConfigFile, CheckUnsetParameters, DumpParameters", "src/config_parser.h: trim_leading_garbage, trim_trailing_garbage"]}
{"id": "C46", "title": "Snapshot indices map to snapshot ids consistently", "statement": "An index outside the configured range is rejected; otherwise the id is the index or the corresponding entry of the configured list, and distinct ids give distinct file name stems.", "quantifier": "every configuration and index", "why_tests_cant": "All indices and list lengths.", "anchors": ["src/snapshot_number.h: SetSnapshotIndex, FormatSnapshotId"]}
{"id": "C47", "title": "Track references survive conversion between global and local ids", "statement": "Converting nested references from TrackIds to local indices and back yields the same TrackIds for subhaloes on the same process, and every reference to a subhalo on another process is dropped there and makes that subhalo a top-level one on its own process.", "quantifier": "every distribution of subhaloes over processes", "why_tests_cant": "All layouts.", "anchors": ["src/subhalo_tracking.cpp: LocalizeNestedIds, GlobalizeTrackReferences"]}
{"id": "C48", "title": "Density profile quantities are extremal and ordered", "statement": "For a subhalo with two or more bound particles Vmax is the largest circular velocity of the enclosed mass at any radius from the softening length on and is attained at Rmax; more than half of the bound particles lie within RHalf and at most half strictly inside it, and likewise for R2Sigma with 95.5%; over any history the peak Vmax record is the running maximum, with the last snapshot that reached it. With at most one bound particle all are zero and the record stays.", "quantifier": "every bound particle list", "why_tests_cant": "All particle distributions.", "anchors": ["src/subhalo.cpp: CalculateProfileProperties"]}
{"id": "C49", "title": "Spherical-overdensity size is the outermost radius above threshold", "statement": "The reported overdensity mass is the mass enclosed by a particle where the mean enclosed density exceeds the threshold, the reported radius is where that mass has exactly the threshold density, and the mean density exceeds the threshold at no radius at or beyond it. The scan and the iterative version agree.", "quantifier": "every sorted profile and threshold", "why_tests_cant": "All profiles, including those that never exceed the threshold.", "anchors": ["src/snapshot.cpp: SphericalOverdensitySize"]}
{"id": "C50", "title": "Infall-branch statistics settle each particle on its branch once", "statement": "At each snapshot every open particle of a target halo that sits in a progenitor halo other than the main one (a halo holding the most) receives that branch, is moved to the front and counted; all others stay open. (The number of branches, meant to count each non-main branch once, is always one too small per snapshot, and a run with several snapshots is undefined once a particle has been settled: proved as findings.)", "quantifier": "every distribution of target particles over progenitor haloes and processes", "why_tests_cant": "All histories of branches.", "anchors": ["toolbox/analysis/BranchStat.cpp: ReduceHost, SendHost, FindHost"]}
{"id": "C51", "title": "A snapshot with valid input never fails and its result does not depend on failure-prone steps", "statement": "Given a state reached by any run and the next snapshot (any redistribution, hosts, births, energies, sink decisions and thread orders), nesting, masking, unbinding, merging and updating all finish: no out-of-range access, no failed assertion, no endless loop; the resulting state is unique for given orders and gravity results.", "quantifier": "every run of any length, every number of processes, every input of the next snapshot", "why_tests_cant": "Safety over unbounded histories: stale ids or bad indices may appear only after many snapshots.", "anchors": ["HBT.cpp: main", "src/subhalo_tracking.cpp: NestSubhalos, MaskSubhalos, UpdateTracks", "src/subhalo_unbind.cpp: RefineParticles", "src/subhalo_merge.cpp: MergeSubhalos"]}
{"id": "C52", "title": "All processes run with the same configuration", "statement": "After the configuration file is parsed on one process and shared, every process holds exactly the configuration read, including derived values, switches, lists and snapshot names, whatever it held before.", "quantifier": "every configuration, every number of processes and root", "why_tests_cant": "A parameter forgotten in the broadcast shows only for non-default values on several processes.", "anchors": ["src/config_parser.cpp: BroadCast", "src/mpi_wrapper.h: SyncContainer, SyncAtom", "src/mpi_wrapper.cpp: SyncAtomBool, SyncVectorBool, SyncVectorString"]}
{"id": "C53", "title": "Centres of mass and bulk velocities are well defined", "statement": "The position and velocity computed for a set of particles are the mass-weighted means. In a periodic box, for particles that extend over less than half a box, the position is the mean in free space up to whole box lengths, whatever the order of the particles, and it follows a translation of all particles.", "quantifier": "every non-empty set of particles with positive masses, every box", "why_tests_cant": "All positions relative to the box edge and all orders.", "anchors": ["src/snapshot.cpp: AveragePosition, AverageVelocity"]}
{"id": "C54", "title": "Counts and masses by particle type are exact", "statement": "After unbinding, the number and mass of bound particles recorded for each particle type are those of the bound particles of that type; the numbers add up to Nbound and the masses to the bound mass, whatever the number of threads and the way they share the work, and the serial recount used after mergers gives the same.", "quantifier": "every list of particles of known types, every number of bound particles, every schedule of the threads", "why_tests_cant": "The parallel version is only used above 100 particles and its schedule is up to the runtime.", "anchors": ["src/subhalo.cpp: Subhalo_t::CountParticleTypes, Subhalo_t::CountParticles"]}
{"id": "C55", "title": "Shape tensors are the second moments about the most bound particle", "statement": "The inertia tensor of a subhalo is, along every direction, the mass-weighted mean squared offset of the bound particles from the most bound one, is never negative, and does not depend on the schedule or on where the subhalo lies in a periodic box; the weighted tensor is the mean of squared cosines, with values between 0 and 1 and the trace given by the masses.", "quantifier": "every set of bound particles, every direction, every box, every schedule", "why_tests_cant": "All positions, in particular across the box edges.", "anchors": ["src/subhalo.cpp: Subhalo_t::CalculateShape"]}
{"id": "C56", "title": "Specific energies and angular momentum are the mass-weighted averages in the chosen frame", "statement": "Kinetic energy, potential energy and angular momentum of a subhalo are mass-weighted averages over its bound particles. They are unchanged by a velocity common to all particles, the Hubble flow adds no angular momentum, about the centre of mass the angular momentum does not depend on the reference velocity, and the mean velocity minimises the kinetic energy.", "quantifier": "every set of bound particles, every reference frame, every schedule", "why_tests_cant": "Invariance under all velocities and frames.", "anchors": ["src/subhalo_unbind.cpp: EnergySnapshot_t::AverageKinematics"]}
{"id": "C57", "title": "A Gadget snapshot is loaded as the simulation wrote it", "statement": "Whatever the byte order of the files, single or double precision, 4- or 8-byte ids, the number of files and of processes, every wanted particle of the snapshot is loaded exactly once, by whole files in order, with its position (placed in the box), velocity (times the square root of the scale factor), id (or running number), mass (own or common), type and internal energy; files of the wrong box, with a wrong first marker or missing stop the run.", "quantifier": "every set of snapshot files of the format, both byte orders of file and host, every number of processes", "why_tests_cant": "All combinations of formats, types without particles, mass layouts and file splits.", "anchors": ["src/io/gadget_io.cpp: ReadGadgetFileHeader, ReadGadgetNumberOfParticles, LoadGadgetHeader, Load, ReadGadgetFile", "src/mymath.h: fread_swap, FortranBlock", "src/mymath.cpp: swap_Nbyte, SkipFortranBlock, AssignTasks"]}
{"id": "C58", "title": "The main loop always completes, and its catalogues stay consistent through any sequence of runs, stops and restarts", "statement": "For any valid particles and groups of each snapshot, any number of processes per session, any thread schedules and gravity results, a session started at any snapshot up to the first incomplete one loads the previous catalogue and processes all its snapshots without undefined behaviour, abort or endless loop. Whatever sessions came before, and wherever they were killed, the complete catalogues are those of one uninterrupted history: they load on any number of processes, hold every track 0..N-1 exactly once, never lose a track, each track is resolved with at least MinNumPartOfSub bound particles or an orphan of one particle, holds only particles of this snapshot (with this snapshot's data), and names a group of this snapshot or none as host.", "quantifier": "all simulations, all inputs of every snapshot, all sequences of sessions with all numbers of processes, all stop points, all contents of incomplete directories, all schedules and gravity solvers", "why_tests_cant": "The composition of some thirty functions over all histories, process counts, crash points and schedules.", "anchors": ["HBT.cpp: main", "src/io/snapshot_io.cpp: ParticleSnapshot_t::Load", "src/halo.cpp: HaloSnapshot_t::UpdateParticles", "src/subhalo.cpp: SubhaloSnapshot_t::UpdateParticles", "src/subhalo_tracking.cpp: AssignHosts, PrepareCentrals, UpdateTracks", "src/subhalo_unbind.cpp: RefineParticles", "src/subhalo_merge.cpp: MergeSubhalos", "src/io/subhalo_io.cpp: Load, Save"]}
{"id": "C59", "title": "A run that was killed and restarted writes the same catalogues as one that was not", "statement": "If a session is killed after any number of snapshots, at any moment of writing the next catalogue, and started again at this snapshot with the same number of processes, inputs and schedules, then every file it writes is identical to the one the uninterrupted session would have written, although only particle ids survive in the catalogues.", "quantifier": "all histories, inputs, stop points, partial contents of the interrupted catalogue, numbers of processes", "why_tests_cant": "Every stop point of every history.", "anchors": ["HBT.cpp: main", "src/io/subhalo_io.cpp: SubhaloSnapshot_t::Load, Save", "src/subhalo.cpp: SubhaloSnapshot_t::UpdateParticles"]}
{"id": "C60", "title": "The processes of a run never wait for each other in vain, and the result does not depend on their scheduling", "statement": "However the processes of a session are scheduled relative to each other, whatever messages the MPI library buffers, and whatever number of processes may do input or output at a time: the collective calls of all processes match in kind, order, root and sizes, every message sent is received by a matching call, no process waits for ever or crashes, no message is left over, and the subhaloes and the files of the catalogues at the end are the same in every execution.", "quantifier": "all interleavings of the processes, all buffering behaviours of the library, all numbers of processes, all valid inputs, all histories of sessions", "why_tests_cant": "The number of interleavings of several hundred calls per snapshot is astronomical, and deadlocks appear only for certain sizes, empty processes or buffering thresholds.", "anchors": ["HBT.cpp: main", "src/mpi_wrapper.h: MyAllToAll, MyBcast, SyncContainer", "src/snapshot_exchanger.cpp: ExchangeParticles, PartitionParticles, ParallelStride, IsContiguousId", "src/particle_exchanger.h: Exchange, ExchangeHalos", "src/subhalo_tracking.cpp: FindOtherHosts, FindOtherHostsSafely, AssignHosts, LocalizeNestedIds, RegisterNewTracks", "src/io/subhalo_io.cpp: Load, Save", "src/mymath.h: Timer_t::Tick"]}
{"id": "C61", "title": "The catalogue does not depend on the number of threads or on their scheduling", "statement": "However many OpenMP threads a process has, however the iterations of a loop are shared out to them and however they are scheduled: in choosing and feeding the centrals, nesting, masking, unbinding, merging and updating the subhaloes no two threads access the same datum at the same time (unless both read, or both write the same value), no thread reaches undefined behaviour or waits for ever, and the subhaloes of the process at the end are the same in every execution, up to the order in which the subhaloes born in this snapshot are numbered.", "quantifier": "all reachable states of all histories, all numbers of threads, all assignments of iterations to threads, all interleavings of single memory accesses", "why_tests_cant": "Races depend on which haloes and subhaloes refer to each other, and on interleavings that a test run may never show.", "anchors": ["src/subhalo_tracking.cpp: DecideCentrals, FeedCentrals, LevelUpDetachedSubhalos, NestSubhalos, MaskSubhalos, GlueHeadNests, UnglueHeadNests, UpdateTracks, SortMemberLists, ExtendCentralNest, AssignRanks, FillDepth, GlobalizeTrackReferences", "src/subhalo_unbind.cpp: RefineParticles", "src/subhalo_merge.cpp: MergeSubhalos, DetectTraps, FillHostTrackIds, FillCores"]}
{"id": "C62", "title": "A group catalogue is read as the group finder wrote it", "statement": "A catalogue in version 2 or 3 of the Gadget group format, with 32- or 64-bit ids, in either byte order, in one unnumbered pair of files or several numbered ones, with or without the subhalo header, at any of the places searched, is read on a host of either byte order by any number of processes (not more than ids) as exactly the groups written, in order, with their numbers and (masked) ids. Missing or additional files, ids files that are too long (such as 64-bit ids read as 32-bit), and unknown formats stop the run.", "quantifier": "every catalogue, both byte orders of file and host, both versions and widths of ids, every place, number of files and number of processes", "why_tests_cant": "All combinations of formats, splits and byte orders; a wrong field order or offset shows only for some of them.", "anchors": ["src/io/gadget_group_io.cpp: GetGroupFileByteOrder, GetFileNameFormat, ReadV2V3, Read, Load, AssignHaloTasks", "src/io/gadget_group_io.h", "src/mymath.h: fread_swap, BytesToEOF"]}
{"id": "C63", "title": "From the files of the simulation to the catalogue", "statement": "A session on snapshot files in Gadget or Apostle format and group catalogues in one of the four Gadget formats or as group numbers in the Apostle files, begun at any snapshot up to the first that is not complete, with any suitable number of processes, never fails; the catalogues it leaves load, number the tracks 0..N-1, and refer only to particles and groups that are in the files of the same snapshot; in memory the particles are as in the files of the last snapshot. An unknown format is refused before anything is processed. Groups of Apostle files are held by the process whose cell of the box contains their centre of mass.", "quantifier": "all simulations written in these formats, byte orders and sizes, all histories of sessions, numbers of processes, stop points, schedules and gravity solvers", "why_tests_cant": "Every combination of formats, file splits, process counts and histories; the conditions one stage needs must be provided by the stage before for every input.", "anchors": ["HBT.cpp: main", "src/io/snapshot_io.cpp: ParticleSnapshot_t::Load", "src/io/halo_io.cpp: HaloSnapshot_t::Load", "src/io/gadget_io.cpp", "src/io/gadget_group_io.cpp", "src/io/apostle_io.cpp"]}
{"id": "C64", "title": "Messages and catalogue tables carry every member of what they transfer", "statement": "When particles, host haloes, subhaloes, halo data, file headers or reading tasks are sent from one process to another, every member of each of them arrives unchanged, whatever build options were chosen, however many are sent and whatever the memory holds; lists owned by the receiver (particles, energies, nested subhaloes) and memory beyond the receive buffer are not touched. The table of subhaloes in the catalogue has a column for every member with its name and type, and a table that is written is read back unchanged.", "quantifier": "all combinations of build options, all numbers of structures, all contents of the memory of sender and receiver", "why_tests_cant": "Sixty-four builds; a member that is forgotten or has the wrong count corrupts single members for certain builds and certain values only.", "anchors": ["src/snapshot.cpp: Particle_t::create_MPI_type", "src/halo.cpp: create_MPI_Halo_Id_type", "src/subhalo.cpp: SubhaloSnapshot_t::BuildMPIDataType", "src/io/subhalo_io.cpp: SubhaloSnapshot_t::BuildHDFDataType, WriteFile", "src/io/gadget_io.cpp: GadgetHeader_t::create_MPI_type", "src/io/apostle_io.cpp: create_ApostleHeader_MPI_type, create_MPI_HaloInfo_t", "src/io/gadget_group_io.cpp: FileAssignment_t::create_MPI_type", "src/datatypes.h: IdRank_t, MPI_HBTRankPair"]}
{"id": "C65", "title": "When a subhalo merges", "statement": "The core of a subhalo with more than one bound particle is made of its twenty most bound particles (all if there are fewer): mass-weighted mean position and velocity, and the spread about them. A subhalo that is not marked yet is marked as sunk, at this snapshot, into the first of its hosts, going outwards, that is not an orphan and for which distance over spread in position plus distance over spread in velocity is less than two; if there is none it stays as it is, and subhaloes marked before keep their mark. Only hosts that received a non-orphan are unbound again. The answer is the same wherever the origin of the (periodic) box is put and whatever common velocity is added. A core without spread absorbs nothing.", "quantifier": "all subhaloes, masses, positions, velocities, hosts without cycles, boxes and frames", "why_tests_cant": "The one-pass formula, the periodic differences and the walk over hosts must be right for every configuration; a core across the boundary of the box is rare in tests.", "anchors": ["src/subhalo_merge.cpp: SubHelper_t::BuildPosition, SubHelper_t::BuildVelocity, SinkDistance, DetectTraps, FillCores"]}
{"id": "C66", "title": "Most-bound particles of subhaloes that share particles (inclusive masses)", "statement": "In builds in which subhaloes contain the particles of the subhaloes inside of them, the step that moves shared particles from the front keeps every subhalo's particles and everything else of it, does not touch orphans or subhaloes outside of the groups, and afterwards the first particle of a subhalo, whose coordinates are recorded as its position and velocity, belongs to no smaller subhalo of the group if any of its particles does not. (Two parts of the intention do not hold: the most bound particle is replaced by the next one even when it is not shared, and the particle that comes to the front may be unbound.)", "quantifier": "all groups of subhaloes, sizes and overlaps", "why_tests_cant": "The result for one subhalo depends on the particles of all smaller ones; the order of exclusion and the swap at the front must be right for every pattern of sharing.", "anchors": ["src/subhalo_tracking.cpp: SubhaloSnapshot_t::PurgeMostBoundParticles"]}
{"id": "C67", "title": "An HDF5 snapshot is loaded as the simulation wrote it", "statement": "The particles of a snapshot in HDF5 format, split over any number of files and read by any number of processes, are loaded completely and in order, with their ids, their positions placed in the box, their velocities converted to physical ones, their own masses or the common mass of their type, their types and internal energies, whichever of the two sets of dataset names the files use; builds for dark matter only load exactly the dark matter. Each group number that occurs makes one group with exactly the particles of this number, with the same values. A different box size and ids too wide for the program stop the run. (Missing files and missing group numbers are not noticed.)", "quantifier": "all files, counts per type, names, id sizes, mass tables, build options and numbers of processes; for incomplete datasets too", "why_tests_cant": "Every combination of types present, common and individual masses, dataset names, build options and splits over files and processes.", "anchors": ["src/io/apostle_io.cpp: ApostleReader_t::ReadHeader, GetParticleCountInFile, CompileFileOffsets, check_id_size, ReadSnapshot, ReadGroupParticles, LoadSnapshot, LoadGroups", "src/hdf_wrapper.h: ReadDataset"]}
{"id": "C68", "title": "Builds with inclusive masses: whole runs keep every guarantee but exclusiveness", "statement": "If the program is built with INCLUSIVE_MASS, then from the first snapshot on, in every snapshot of every run: the steps never fail and have one result; every subhalo is unbound alone from all particles it holds, those of inner subhaloes included; merging marks, kills and empties trapped subhaloes but gives their particles to nobody; a track never gets a particle of another one; at the end the particle at the front of a resolved subhalo is not one of a smaller resolved subhalo of the host if it has any such particle; track ids stay dense, hosts stay trees, orphans and resolved subhaloes stay distinguished, and peak mass, isolation, birth, death and sink records are right.", "quantifier": "all runs of any length on any number of processes in each snapshot, all inputs, energies, sink criteria and orders of parallel iterations", "why_tests_cant": "the build option changes four places of the main loop, and what they have to establish for each other holds only by induction over snapshots", "anchors": ["src/subhalo_tracking.cpp:SubhaloSnapshot_t::PrepareCentrals", "src/subhalo_tracking.cpp:SubhaloSnapshot_t::UpdateTracks", "src/subhalo_tracking.cpp:SubhaloSnapshot_t::PurgeMostBoundParticles", "src/subhalo_unbind.cpp:SubhaloSnapshot_t::RefineParticles", "src/subhalo_merge.cpp:Subhalo_t::MergeTo"]}
{"id": "C69", "title": "The catalogue reader shows what the run has found", "statement": "Opened on the directory a run has left, the Python reader offers exactly the snapshots that are complete and shows for each, by its number or counted from the end, every subhalo once, with its properties, nested subhaloes, bound and source particles as they were at the end of the snapshot; a subhalo is found by its TrackId, and its track is what was seen of it in every snapshot from birth to the end. It finds in the parameter file of the run the values the run used. A combined catalogue has each track at the position of its TrackId. Sharing out particles among subhaloes gives each to the smallest subhalo that has it, loses none and gives none to two (except those of subhaloes with one particle).", "quantifier": "all histories of runs, stops and restarts that leave the same number of files for each snapshot; all process counts; all catalogues with TrackIds 0..N-1; all particle lists; all parameters that can be printed", "why_tests_cant": "The reader rebuilds snapshot numbers, file counts and offsets over files from names and sizes; errors show up only for certain numbers of files, empty files or restarts.", "anchors": ["toolbox/HBTReader.py: HBTReader, ConfigReader", "toolbox/combineSubSnap.py: combineSubSnap, write_vlen_data", "src/io/subhalo_io.cpp: SubhaloSnapshot_t::WriteFile", "src/config_parser.cpp: Parameter_t::DumpParameters"]}
{"id": "C70", "title": "The build without stripping keeps every particle", "statement": "In the build HBT.nostrip no subhalo that is large enough loses a particle by unbinding: every subhalo of every catalogue has all its particles bound, has at least MinNumPartOfSub of them or is an orphan with at most one, and its particles are in the order of their energies after unbinding. The run still never fails, tracks stay, hosts are groups of the snapshot, catalogues load with any number of processes, and a run that is stopped and started again writes what it would have written.", "quantifier": "all particle lists, energies (of either sign), parameters, histories of runs, stops and restarts, process counts and schedules", "why_tests_cant": "One line of a preprocessor branch changes what every later stage assumes about unbinding; that no stage breaks or strips depends on all histories.", "anchors": ["src/subhalo_unbind.cpp: Subhalo_t::Unbind, NO_STRIPPING", "Makefile: HBT.nostrip", "HBT.cpp: main"]}
{"id": "C71", "title": "A start of the program processes the snapshots asked for, with the parameters given", "statement": "HBT with a parameter file and two numbers s and e between MinSnapshotIndex and MaxSnapshotIndex, started when the snapshots before s are complete, does not fail, processes exactly the snapshots s to e and leaves the catalogues of all others alone; with one number it processes this snapshot, with none all from MinSnapshotIndex to MaxSnapshotIndex; further arguments are ignored. Two starts, for s to m and for m+1 to e, leave the catalogues that one start for s to e leaves. The run uses the values of the parameter file, on every process. Without arguments, without the file, with s before the first snapshot or e after the last the program does not finish properly. (What is not a number is taken for 0, and what follows a number is ignored.)", "quantifier": "all parameter files that parse, arguments, contents of the output directory that earlier starts can leave, process counts, snapshot inputs and schedules", "why_tests_cant": "The range, the restart and the parameters go through text, a broadcast and files of earlier runs; the statement is about all of them together, for every range and every way to split it.", "anchors": ["HBT.cpp: main", "src/config_parser.cpp: ParseHBTParams, Parameter_t::ParseConfigFile", "src/config_parser.h: Parameter_t::BroadCast", "src/snapshot_number.h: Snapshot_t::SetSnapshotIndex", "src/io/subhalo_io.cpp: SubhaloSnapshot_t::Load, Save"]}
{"id": "C72", "title": "From the parameter file and the files of the simulation to the catalogues", "statement": "HBT started with a parameter file on the files of a simulation (Gadget or HDF5 snapshots, a group catalogue in one of the supported formats), in an output directory that may hold anything, does not fail and leaves, for each snapshot from MinSnapshotIndex to MaxSnapshotIndex, a catalogue that loads with any number of processes, in which tracks are numbered 0..N-1, each has at least the MinNumPartOfSub bound particles of the parameter file or is an orphan, its particles are in the files of this snapshot and its host is a group in the files of this snapshot, or none. Started for a range of snapshots, it continues what earlier starts have left. An unknown format stops it.", "quantifier": "all parameter files that parse, all snapshot and group files in the supported formats (as bytes), all ranges, histories, suitable numbers of processes, schedules and gravity solvers", "why_tests_cant": "This is the composition of text parsing, broadcast, byte-level readers, the whole tracking loop and the catalogue files; nothing short of a proof covers all of their combinations.", "anchors": ["HBT.cpp: main", "src/config_parser.cpp: ParseHBTParams", "src/io/snapshot_io.cpp: ParticleSnapshot_t::Load", "src/io/halo_io.cpp: HaloSnapshot_t::Load", "src/io/subhalo_io.cpp: SubhaloSnapshot_t::Load, Save"]}
{"id": "C73", "title": "The list of snapshots made from a directory", "statement": "CreateSnapshotList.py snap (snip) lists the readable, non-empty directories snapshot_* (snipshot_*) in the order of their names, one for each redshift, the first by name; all lists one directory for each redshift of these, in the order of strictly decreasing redshift, and has every entry of the list snap: a snipshot only where there is no snapshot of the same redshift. A directory without a redshift in its name is an error.", "quantifier": "all contents of the directory, redshifts, ways to sort that are stable", "why_tests_cant": "Which of several directories of one redshift is kept depends on two sorts and on the first index that a third one returns, for all contents of a directory.", "anchors": ["toolbox/CreateSnapshotList.py: redshift, clear_dup, clear_empty"]}
{"id": "C74", "title": "Masses and radii of groups are read as stored", "statement": "LoadVirial gives, for each of Mean200, Crit200 and TopHat, the mass and the radius of every group of a subfind catalogue, in the order of the groups over all files, for both versions of the format, either byte order of files and host, 32 and 64 bit reals and any number of files. It refuses other names, catalogues without these arrays, and catalogues with fewer groups than their first file announces; with more groups it writes beyond the end of the vectors.", "quantifier": "all subfind catalogues (as bytes) of versions 2 and 3, byte orders, widths of reals, numbers of files", "why_tests_cant": "The arrays are found by skipping computed numbers of bytes; a wrong count shows only for some numbers of groups and subhaloes, versions and byte orders.", "anchors": ["src/io/gadget_virial_io.h: GadgetVirialIO::LoadVirial", "src/io/gadget_group_io.cpp: GadgetGroup::GetFileNameFormat"]}
{"id": "C75", "title": "Rounding does not move particles out of the box, cells out of the grid, or lose particles", "statement": "With any rounding to nearest of any precision: a wrapped position lies in the closed box and within the accuracy of the format of an image of the position (it can be the upper edge itself only for negative positions, and in every format it is for some); the separation of two positions in the box is at most half a box, and taking the nearest image adds no error to the one of the subtraction; the cell of a position is in the grid and monotonic in the position; the number of passes of an exchange is the exact quotient rounded up; the source of a subhalo keeps all its bound particles when their number is exact in the format, or the relax factor exceeds 1 by four units of the last digit (with factor 1 one is lost at 2^(p+1)+1 particles); the unbinding stops when nothing changes, and when it stops the bound fraction is the requested one up to the accuracy. With masses in single precision, added up in any order over any number of threads, every subhalo of every run is resolved or an orphan, its peak mass, isolation and birth are those of its history, and its mass is that of its bound particles up to one relative error of 2^-53 for each of them and each thread and one of 2^-24 (or 2^-24 for each of them where they are counted one by one).", "quantifier": "all precisions, all roundings to nearest (any rule for ties), all positions, box sizes, steps, numbers of particles and factors; all runs and all distributions of sums over threads", "why_tests_cant": "The exceptional values are single numbers among 2^32 or 2^64, or need tens of millions of particles.", "anchors": ["src/mymath.h: position_modulus", "src/config_parser.h: NEAREST", "src/mymath.cpp: GetGrid", "src/mpi_wrapper.h: MyAllToAll", "src/subhalo_unbind.cpp: Subhalo_t::TruncateSource, Subhalo_t::Unbind, EnergySnapshot_t::AverageVelocity", "src/subhalo.cpp: Subhalo_t::CountParticles"]}
{"id": "C76", "title": "Unbinding uses the energies of the particles that are left, in their own frame", "statement": "In every iteration of unbinding the energy of a particle is its kinetic energy in the centre-of-mass frame of the particles left by the iteration before (with the Hubble flow, to the nearest image in a periodic box), plus the potential of all other particles left, plus its thermal energy if wanted; particles of positive energy are removed, those of negative energy stay; it ends when fewer than the minimum are left (disruption) or when few enough were removed, and then the bound particles and the frame of the subhalo are the ones of that iteration. Whether the energies are computed anew or corrected for the removed particles makes no difference. This holds unless an iteration removes half of the particles or more after an earlier one has removed fewer than half; then the correction starts from a frame that is out of date, and bound subhaloes can be lost.", "quantifier": "all sets of particles of positive masses with any positions and velocities, in free space or within half a periodic box; all frames at the start, cosmologies and parameters; all gravity solvers that add up the potentials of single particles, among them the octree with opening angle 0; potentials from all particles, not from a sample; exact arithmetic", "why_tests_cant": "The corrected energies differ from the right ones only for certain sequences of removals, and a test would need the right energies for each of them.", "anchors": ["src/subhalo_unbind.cpp: Subhalo_t::Unbind, PartitionBindingEnergy, EnergySnapshot_t::AverageVelocity, EnergySnapshot_t::AveragePosition", "src/gravity_tree.cpp: GravityTree_t::BindingEnergy, GravityTree_t::EvaluatePotential", "src/snapshot.h: Snapshot_t::RelativeVelocity"]}
{"id": "C77", "title": "The potential of the tree is close to the direct sum", "statement": "The potential that the gravity tree gives at any point is that of the direct sum of the softened potentials (Gadget's spline) of all its particles at their distances (nearest image, if periodic), up to a relative error of at most sqrt(3) times the opening angle and 2 in 10^12 for the constants of the spline. At a particle of the tree, asked for with its own mass, the same holds for the sum over the other particles; the binding energy is the exact one up to that error of the potential energy, so every particle whose exact energy is further from zero than this is judged correctly. Unbinding with this tree is as C76 says, up to errors of the energies of twice that: in every iteration particles above that are removed and particles below minus that stay (half of the error is from the potential at the start, the rest from correcting it for removed particles).", "quantifier": "all particles of positive masses at any positions (coincident ones included), all points, opening angles below 1/sqrt(3) (0.577; the default is 0.45), softenings, resolutions of the tree and random numbers; in free space and in a periodic box; exact arithmetic with square roots", "why_tests_cant": "The error depends on how particles are distributed over nodes; the worst arrangement is not one a test would hit, and the bound is for all of them.", "anchors": ["src/gravity_tree.cpp: GravityTree_t::EvaluatePotential, GravityTree_t::BindingEnergy", "src/oct_tree.tpp: OctTree_t::Build"]}
{"id": "C78", "title": "Every snapshot is processed with the cosmology of its own header", "statement": "The Hubble rate and matter density used for a snapshot solve Friedmann's equation for the header's density parameters and scale factor; the overdensity test of spherical masses compares the physical mean density of a sphere with that many critical densities (for the factor b200: 200 times the mean matter density). Every process takes these numbers from the header of the first snapshot file, so that in a whole run, a restarted one and one on a range of snapshots each snapshot is processed with its own cosmology, never with one left from loading or from the snapshot before; every catalogue file says the cosmology of its snapshot, and loading the catalogue on any number of processes restores it on each process that reads a file. The catalogue reader shows for every snapshot, and in every row of a track, the scale factor of that snapshot's header.", "quantifier": "all density parameters and scale factors of an expanding universe, masses and radii; all snapshot files in the supported formats; all configurations, ranges of snapshots, restarts and numbers of processes; any contents of the output directory", "why_tests_cant": "A cosmology left over from another snapshot shifts energies slightly and is invisible in any one catalogue; whether it can happen depends on the path through loading and the loop.", "anchors": ["src/snapshot.h: Cosmology_t::Set", "src/snapshot.cpp: HaloVirialFactors, SphericalOverdensitySize", "src/io/subhalo_io.cpp: SubhaloSnapshot_t::ReadFile, SubhaloSnapshot_t::WriteFile", "src/subhalo.cpp: SubhaloSnapshot_t::UpdateParticles", "HBT.cpp: main", "toolbox/HBTReader.py: GetScaleFactor, GetScaleFactorDict, GetTrack"]}
{"id": "C79", "title": "Optional output stands in the order of the particles", "statement": "With SaveSubParticleProperties every catalogue file has, for each subhalo, the properties of its bound particles, and with SAVE_BINDING_ENERGY their energies, one entry for each id of SubhaloParticles, in the same order. After unbinding the energies of a resolved subhalo are those its bound particles had in the last iteration; none is positive, and they ascend (if the most bound particles have been put in order by refined energies, those come first and the rest ascends). A subhalo that merges into another keeps the energy of the particle it keeps. So at the end of every snapshot of every run the energies beside each subhalo are those of its last unbinding in this snapshot, in the order its bound particles have, whatever was there before. Loading a catalogue gives the energies back. GetParticleProperties of the catalogue reader gives, for any subhalo, the properties of the particles that LoadParticles gives for it, in the same order, and refuses indices beyond the last. (The energy stored for a disrupted subhalo is that of some other particle than the one it keeps; and with INCLUSIVE_MASS the most bound particle may be exchanged for another without its energy.)", "quantifier": "all sources, energies, shuffles, sorts and parameters of unbinding; all runs and snapshots, all schedules of the loops over haloes and subhaloes; all states with no more bound particles than particles; all numbers of processes and orders of writing; all previous contents of the directory; all indices", "why_tests_cant": "An entry that belongs to another particle looks like any other number; whether the lists agree depends on every reordering between unbinding and writing.", "anchors": ["src/subhalo_unbind.cpp: Subhalo_t::Unbind", "src/subhalo_merge.cpp: Subhalo_t::MergeTo", "src/io/subhalo_io.cpp: SubhaloSnapshot_t::WriteFile, SubhaloSnapshot_t::ReadFile", "toolbox/HBTReader.py: GetParticleProperties"]}
{"id": "C80", "title": "Energies from a sample of the particles are right on average", "statement": "With MaxSampleSizeOfPotentialEstimate below the number of particles of a subhalo, the first iteration of unbinding gives each particle its energy in the frame at the start, with the gravity of a sample of that size, taken at random: without the particle itself, each particle of the sample having the mass of the particles it stands for. On average over all shuffles of the particles this is, for each particle, its energy with the gravity of all the others. (Not separately for the particles in the sample and for those outside: with n particles and a sample of q, over the shuffles that put a particle into the sample the gravity on it is n(q-1)/(q(n-1)) times the right one.) Whatever the samples, the whole of unbinding is then iterative unbinding with energies wrong by no more than the potentials of the samples taken and, with energies rounded when they are stored, the rounding of one energy per iteration and one more: particles whose energy is further from zero than that are kept or removed rightly in each iteration, and the energies are in the centre-of-mass frame of the particles left (provided that, once an iteration removed fewer particles than stay and than a sample has, all later ones but the last do so too). With RefineMostboundParticle, the first particles of the subhalo, as many as a sample has, are in the end ordered by their energies in the gravity of each other, in the new frame, so that the first is the most bound of them.", "quantifier": "all sets of two or more particles of positive masses with any positions and velocities; all frames, cosmologies, sample sizes below the number of particles and other parameters; all gravity solvers that add up the potentials of single particles in proportion to mass, among them the octree with opening angle 0; the average is over all permutations of the particles; exact arithmetic", "why_tests_cant": "An average over all shuffles of many particles cannot be computed by running the program; a test sees a few of them, and a bias of a few percent looks like noise.", "anchors": ["src/subhalo_unbind.cpp: Subhalo_t::Unbind, EnergySnapshot_t::SetMassUnit, EnergySnapshot_t::GetMass", "src/gravity_tree.cpp: GravityTree_t::BindingEnergy"]}
