# Formal model of HBT+ (Kambrian/HBTplus) in Lean 4

## Layout

* `properties.jsonl` – the English properties (C01, C02, ...).
* `lean/Verif/Spec/*.lean` – small, model independent specifications (what the
  English words mean). They do not import any model file.
* `lean/Verif/Model/*.lean` – the model: function by function transcriptions of
  the C++ sources. Every definition cites file and lines of `/repo`.
* `lean/Verif/Lemmas/*.lean` – helper lemmas.
* `lean/Verif/Props/*.lean` – the property theorems, named `Cxx_...`, each with
  a concrete non-vacuity `example` beside it.
* `MANIFEST.json` – property -> theorem names.
* `seeded/LOG.jsonl` – wrong-program experiments.

## Modelling conventions

* Integers (`HBTInt`, `int`, `size_t`) are `Int`/`Nat` unless the property is
  about overflow (then `BitVec`). So "counters do not overflow" is a standing
  assumption, except where a theorem says otherwise.
* `HBTReal`/`float` are elements of a linearly ordered field (`ℚ`, or a generic
  `LinearOrder`/ordered field `K`) in the functions that compute with positions, velocities and potentials.
  The core (tracking, unbinding, merging, runs, SPMD, threads, the whole program: C20-C35, C51, C58-C61,
  C68, C70-C72) does not assume this: masses are of any linearly ordered type with any product and any ways
  of adding up lists (`Spec/MassSum`, no law but that a single mass is not changed), and the two products of
  unbinding (`Nlast*BoundMassPrecision`, `Nbound*SourceSubRelaxFactor`) are rounded by any function `fl` of which
  only `Stops` and `Keeps` (`Spec/Unbind`) are assumed. `C75_stops`/`C75_keeps` derive these from rounding to nearest, and
  `C75_run` applies the theorems to masses in single precision. NaN and infinities are not modelled (C55 has one value for NaN).
* Arrays/vectors are `List`s or `Array`s. Out-of-range accesses, failed
  `assert`s, `exit(1)`/`throw` and non-termination are *distinct outcomes* of
  the model (`Outcome.ub`, `Outcome.abort`, fuel exhaustion = `Outcome.diverge`
  or `none`), never silently totalised. Theorems state that they do not happen, under the stated
  precondition, or exhibit an input on which they do.
* Loops with pointers are modelled with index loops on fuel; theorems
  prove that the fuel given suffices (termination).
* `std::sort` is modelled as *any* function returning a sorted permutation
  (parameter with a hypothesis), because it is not stable and the standard
  fixes no order of equal elements; `std::stable_sort` as `List.mergeSort`.
  `std::unordered_set` as a finite set of ids.
* MPI collectives are modelled by their specification on the vector of all
  processes' arguments (`Alltoall`: transpose; `Allreduce`: fold; `Scan`: prefix
  fold; `Bcast`; `Scatterv`). That MPI implements them is in the trusted base.
* OpenMP loops whose iterations touch disjoint data are modelled sequentially;
  where the schedule matters (critical sections, IO throttling) the schedule is
  an explicit universally quantified argument.
* External physics (gravity tree potentials used while unbinding, square roots,
  powers) are parameters ("oracles"): theorems hold for every oracle.

## Trusted base

* Lean 4.33.0 kernel; axioms `propext`, `Classical.choice`, `Quot.sound` only
  (each property file ends with `#print axioms`-checkable theorems; no own
  axioms, no `sorry`, `native_decide`, `bv_decide`).
* The reading of the C++ source: the code is not executed here; the tie is the
  citation on every definition.
* C++ standard library, MPI, OpenMP, HDF5 behave as their specifications say.
* Not modelled: floating point rounding outside of the core (see Conventions) and of C75, HDF5 byte layout, MPI datatypes
  (except in C64), OpenMP data races (except in C61), performance/timers, memory exhaustion.

### Which code is modelled

By file, for the code that does something (declarations, includes, printing and timers apart). "All" means that every function has a definition in `Verif/Model`
that cites it; the simplifications are in the comments of the definitions.

| file | modelled | not modelled |
|------|----------|--------------|
| HBT.cpp | all: C51, C58-C60, C63, C70-C72 | timers, the log file |
| src/config_parser.* | all: C13, C45, C52, C71 | |
| src/subhalo_tracking.cpp, src/subhalo_unbind.cpp, src/subhalo_merge.cpp, src/subhalo.cpp | all: C20-C34, C47, C48, C51, C54-C56, C58-C61, C65, C66, C68, C70, C75, C76, C79, C80 | in C20-C34 and whole runs the energies of unbinding are a parameter; C76 computes them, with a gravity solver as parameter, and has the octree as one case, C77 bounds the errors with the octree at any opening angle; rounding of energies is left out there, but the rounding when they are stored is in C80; potentials estimated from a sample: C80, on average for the first iteration, up to the errors of the samples for all |
| src/subhalo.h | members, comparisons, tests | `GetCoreSize` (called nowhere) |
| src/halo.*, src/halo_particle_iterator.h, src/io/halo_io.cpp | all: C14, C19, C20, C58, C63, C64 | `main` of the test program (halo_io.cpp:50-82) |
| src/snapshot.*, src/io/snapshot_io.cpp | loading, exchange, ids, averages, sizes of spherical overdensities, cosmology: C15-C19, C49, C53, C63, C64, C78 | plain accessors; `SnapshotView_t` (used nowhere); `main` of the test program (snapshot_io.cpp:49-70) |
| src/snapshot_number.h, src/hash.h, src/hash.tpp, src/hash_remote.tpp | all: C08-C10, C46 | the search that `ALWAYS_BATCH_BINARY_SEARCH` switches off |
| src/particle_exchanger.h, src/snapshot_exchanger.cpp | all: C03, C15-C19, C60 | src/particle_exchanger.cpp (a type that is not used) |
| src/mpi_wrapper.* | all that is called: C11-C13, C52, C60, C75 | `VectorAllToAll` (mpi_wrapper.h:88-119, called nowhere), wrappers without own code |
| src/mymath.* | all that is called: C01-C07, C75 | `count_pattern_files`, `spherical_basisD`, `vec_prod`, `vec_cross`, `logspace` (called nowhere; `vec_cross` has the wrong sign in its second component), `EigenAxis` (calls GSL), `Timer_t` |
| src/linkedlist_base.*, src/linkedlist.* | all: C37-C40 | |
| src/oct_tree.*, src/geometric_tree.*, src/gravity_tree.* | all: C41, C42, C76, C77 | `main` of the test program (gravity_tree.cpp:177-212) |
| src/io/gadget_io.*, src/io/gadget_group_io.*, src/io/gadget_virial_io.h | all, from the bytes of the files: C07, C36, C43, C57, C62, C74 | the example program (gadget_group_io.cpp:466-494) |
| src/io/apostle_io.*, src/hdf_wrapper.* | all, from the datasets of the files: C36, C44, C67 | the HDF5 library |
| src/io/subhalo_io.cpp | all: C35, C36, C58, C59, C64, C69, C78, C79 | the HDF5 library |
| src/datatypes.h | lists, views, collectors, MPI types | |
| toolbox/HBTReader.py, toolbox/CreateSnapshotList.py, toolbox/combineSubSnap.py | all the rest: C69, C73, C78, C79 | `ParticleMass`, the layout of older versions in `GetParticleProperties`, the timing example |
| toolbox/analysis/BranchStat.cpp | the matching of particles: C50 | `Load`, `Save`, `main` |
| src/test, toolbox/dump_a_sub.cpp, toolbox/myutils.py, configs, job files | | all: test programs, plotting, examples |

## Plan per property

| id | modelled | proof shape |
|----|----------|-------------|
| C01 | `CompileOffsets` as an accumulating loop | induction on the list; segments tile |
| C02 | `AssignTasks` arithmetic | arithmetic, then tiling of `[0,n)` |
| C03 | `LargestRootFactor`, `ClosestFactors`, `GetGrid`, `AssignCell` | product invariant, mixed-radix bound and injectivity |
| C04 | `position_modulus`, `NEAREST` over an ordered field with floor | uniqueness of representative; minimal image |
| C05 | `swap_Nbyte` cases 1/2/4/default on bytes | each case equals per-item reversal; involution |
| C06 | `psort` with arrays and fuel | loop invariants |
| C07 | `FortranBlock::Read` on byte streams | parser/printer round trip |
| C08 | `Fill` + C `bsearch` loop | binary search invariant |
| C09 | `FlatIndexTable_t` | array refinement; equality with C08 |
| C10 | `GetIndicesRecursive` with index ranges | strong induction on range size |
| C11 | `MyAllToAll` loop on the matrix of all processes | invariant over loops: prefixes delivered; buffer bound |
| C12 | `MyBcast` | same |
| C13 | `SyncVectorString`, `SyncContainer` guard in 32-bit, field-wise `BroadCast` | round trip; bit-vector counterexample for the guard |
| C14 | halo iterators as a state machine | refinement to `flatten` |
| C15 | `PartitionParticles`, `ExchangeParticles` | permutation + range lemmas |
| C16 | `IsContiguousId` | counting argument on distinct integers |
| C17 | `ParticleExchanger_t` end to end on all processes | refinement to `map` |
| C18 | `RestoreParticleOrder` swap loop | invariant + measure |
| C19 | `ExchangeHalos` | permutation, built on C01/C11/C14 |
| C20 | `KickNullParticles` in-place compaction | refinement to `filter` |
| C21 | `RegisterNewTracks` over all processes as a step of a history | invariant by induction on history |
| C22 | `AssignHosts` | permutation + decision logic |
| C23 | `MemberShipTable_t` with explicit storage | buckets of a counting sort |
| C24 | `DecideCentrals` | argmin |
| C25 | `FeedCentrals` under any schedule | permutation invariant |
| C26 | nesting state machine | forest invariant over histories |
| C27 | `Mask` with fuel | recursion over forest |
| C28 | `PartitionBindingEnergy` hole algorithm | loop invariant; zero-energy anomaly by witness |
| C29 | `Unbind` with energy oracle | decreasing measure, case analysis |
| C30 | `RecursiveUnbind` | disjointness by recursion on forest; witness for merge case |
| C31 | `TruncateSource` | arithmetic |
| C32 | `MergeTo`, `DetectTraps`, `MergeRecursive` | set reasoning; history invariant |
| C33 | `AssignRanks` | sortedness |
| C34 | `UpdateTrack`, death marks | fold over history |
| C35 | `Save`/`Load` on abstract files | round trip using C02 |
| C36 | throttled IO loop as transition system | inductive invariant over interleavings |
| C37–C39 | linked lists with arrays `HOC`, `List` | chain invariant |
| C40 | FoF closure | invariant |
| C41–C42 | `Build`, `UpdateInternalNodes`, `Search`, `SphDensity`, `EvaluatePotential` on the cell array | a ghost tree represented by the array; induction over insertions and over the ghost tree |
| C43 | `AssignHaloTasks`, `Load` of gadget_group_io.cpp on all processes | prefix sums, `lower_bound` arithmetic, slices of concatenated files |
| C44 | `LoadSnapshot`, `LoadGroups`, `DecideTargetProcessor`, `MergeHalos` of apostle_io.cpp on all processes | run-length encoding of the sorted hosts, permutations through the exchanges, merging of sorted pieces |
| C53 | `AveragePosition`, `AverageVelocity` | closed form of the summation loops in free space |
| C45–C46 | config/strings | list induction |
| C52 | `BroadCast`, one step per member | rewriting each step, structure eta |
| C47 | reference conversion | map inverse |
| C48 | `Model/Profile`: sort by radius, cumulative mass, softening, `max_element`, quantile radii, peak record | in a sorted list the bodies within R are a prefix, so the cumulative mass at its end is the enclosed mass; running maximum by induction over calls |
| C49 | `Model/Profile`: the three overdensity functions | last index above threshold; enclosed mass is constant up to the next body; iteration decreases and never passes below the scan |
| C50 | `Model/Branch`: broadcast, lookup, sending and reduction of one target on all ranks | messages are together a permutation of the hosted particles; counting over map keys; refutation of the branch number for every input |
| C54 | `Model/Moments`: `CountParticleTypes`, `CountParticles`, threads as any division of the particles | counting by induction; invariance of counts under permutation |
| C55 | `Model/Moments`: `CalculateShape` with the reduction as any division into partial sums | a reduction is a sum; quadratic form of the tensor; Cauchy–Schwarz; unwrapping for compact sets |
| C56 | `Model/Moments`: `AverageKinematics` | closed form of the sums, identities of cross products and squares |
| C57 | `Model/GadgetSnap` on top of `Model/Bytes`: header, records, particles of a file, files of a process | a specification of the file format that writes bytes (`Spec/GadgetFile`); the reader is shown to invert the writer record by record, then file by file, then over the ranks |
| C58 | `Model/Main`: one iteration of `main` from particles and groups on the processes to the written catalogue, sessions, restarts | each iteration is shown to be a snapshot of a `Run` (the inputs meet `InputsOk`); invariant over sequences of sessions: the directories hold the catalogues of a run |
| C59 | the same | the data of particles do not enter the next snapshot: `UpdateParticles` depends on their ids only |
| C60 | `Model/Spmd*`: the programs of the single processes from the first barrier to the last file, with the MPI calls as they are in the code; `Spec/Spmd`: all interleavings of such programs | diamond property of the steps, hence one complete execution settles all; that execution is built call by call from the all-processes models and composed with C58 |
| C61 | `Model/Threads`: the bodies of the OpenMP loops from `DecideCentrals` to `UpdateTracks` as programs of single memory accesses; `Spec/Threads`: all ways to share out and interleave them | footprints: iterations whose footprints do not meet commute, hence every execution ends like the sequential one; the footprints are the members of one host, by the invariants of `Run` |
| C62 | `Model/GroupBytes`: search for the files, byte order, heads, ids, tasks | `Spec/GroupFile` writes the bytes of a catalogue; the reader is shown to see the files of C43, file by file; refusals by following the reads |
| C63 | `Model/Input`: choice of the readers, the main loop from the bytes of Gadget files (or the datasets of HDF5 files, field by field as in C67, with the placement of groups on the processes by their centres of mass) to the catalogue | the readers of C43, C44, C57, C62, C67 deliver inputs that meet the hypotheses of C58; a session on files is a session of C58; groups of HDF5 files are on the process whose cell of the box holds their centre of mass |
| C64 | `Model/MpiTypes`: members of the structures sent, calls that build the MPI types and the HDF5 row type, for all build options; `Spec/Layout`: offsets of members, effect of a message | a byte is the sender's if a block covers it, else the receiver's; that blocks cover the members and avoid the vectors is a finite check over the 64 builds |
| C65 | `Model/Sink`: the cores (`BuildPosition`, `BuildVelocity`), `SinkDistance`, `FillCores`, `DetectTraps` with distances computed; `Spec/Sink`: spread, shortest way, the criterion | the sums are those about the first particle in free space (lemmas of C53), one-pass spread = spread about the mean by algebra; the walk by induction on the height of hosts; equality with the oracle model |
| C66 | `Model/Purge`: `PurgeMostBoundParticles` over all groups; `Spec/Purge`: exchange, first own particle, ids of later members | induction over the members from the end, the exclusion list holds the particles of the members done |
| C67 | `Model/Hydro`: `ReadHeader`, counts, offsets, `ReadSnapshot` and `ReadGroupParticles` dataset by dataset; `Spec/HydroFile`: files as datasets, as written, particles in memory | loops over a type as maps over positions, over types and files by segments of the buffer; refinement to the records of C44 for the groups |
| C68 | `Model/Inclusive`: the steps of the main loop in builds with `INCLUSIVE_MASS`; `Spec/Inclusive`: moved to the front, mass of as many particles | each step against the step of the other build (`SnapCore`, `MergingCore`, `UpdateSteps`), then the invariant of runs of `Props/Run` with another predicate for the mass |
| C69 | `Model/Reader`: toolbox/HBTReader.py and toolbox/combineSubSnap.py over the files of `Model/Catalogue`; `Spec/Reader`: properties of a subhalo, particles shared out | the files at the end of `Reach` (C58) give the files the reader opens; induction over files with offsets; sorted permutations of `0..N-1` are equal; the parameter file through C45 |
| C70 | `Model/NoStrip`: the build `HBT.nostrip` (`NO_STRIPPING`), with all that calls `Unbind` repeated | simulation: with `BoundMassPrecision ≤ 1` the changed loop does what the main one does when the energies are mapped, in order, to negative ones; C58 and C59 then apply; that all is bound is an invariant of runs with negative energies (`Lemmas/Whole`) |
| C71 | `Model/Program`: `main`, `ParseHBTParams`, `atoi`; parameters from the configuration (`buildOf`) | composition of C45, C46, C52, C58, C59; `atoi` inverts decimal notation |
| C72 | `Model/ProgramFiles`: the program with the readers of C63, configured from the parameter file (`readersOf`) | composition of C71 with C63 |
| C73 | `Model/SnapList`: toolbox/CreateSnapshotList.py, names as lists of characters, `float` a parameter | induction on the list for `clear_dup`; stability of the sort for the preference of snapshots |
| C74 | `Model/Virial`: src/io/gadget_virial_io.h on the files of C62 | position in the file after each `fseek`; induction on the files |
| C75 | `Spec/Rounding`, `Model/Rounded`: position_modulus, NEAREST, GetGrid, the number of passes, TruncateSource and the test for convergence, with a rounding after each operation; `Spec/MassSum`, `Model/SingleMass`: sums of masses in single and double precision, distributed over threads in any way | monotonicity and relative error of a rounding to nearest; Sterbenz' lemma; `roundTo` shows that roundings to nearest exist; relative errors of sums by induction; C29 and C34 applied to masses in single precision |
| C76 | `Spec/Binding`: specific energies, iterative unbinding as a relation (`Unbinds`); `Model/UnbindEnergy`: `Unbind` with the full computation, the correction for removed particles, the frames, sampling and `RefineBindingEnergyOrder` | invariant of the loop: the energies are those in the recorded frame with the gravity of the last set; additivity of separations (in a box: for places within a quarter of it); direct sum of the octree at opening angle 0; energies read off a run give the same run of the model with energies as parameter |
| C77 | the octree of C41; `Spec/Spline`: the softened potential with exact fractions, direct sums | triangle inequality for nearest images; a cluster allowed by the opening angle is as far as each of its members up to a factor 1 ± √3 θ; the potential falls with distance, and distance times potential rises; sums over clusters; for unbinding the invariant of C76 with an error: error of an energy plus error of the gravity of the particles left is at most twice the error of the gravity of all |
| C78 | `Model/Cosmology`: `Cosmology_t`, the header values, the group `Cosmology` of catalogue files, the main loop that carries it; `Model/ReaderScale`: what the reader of catalogues shows of it; `Spec/Cosmology`: expansion, critical density, mean density of a sphere | algebra in an ordered field with square roots; the readers of C43 and C44 give the header of the first file; invariant over the loop: after a snapshot every process has that snapshot's cosmology, so that the run equals one of C72 |
| C79 | `Model/OptionalOutput`: `Unbind` with `Elist` and `Energies`, the datasets `ParticleProperties` and `BindingEnergies`, writing and reading them, `GetParticleProperties`; `Model/StoredEnergies`: `RefineParticles`, `MergeSubhalos` and the compaction of `RegisterNewTracks` on subhaloes with their energies | `Elist` carries the invariant of C29 and the energies of the iteration; the lists of a file zipped with those of C35; induction over files; for whole snapshots: `FromUnbinding` (the energies beside a subhalo and the order of its bound particles come from the same unbinding) carried through the recursion, the second unbinding, truncation and compaction, over `Run`; disruption and `INCLUSIVE_MASS` by witness |
| C80 | `Spec/Sample`: bodies standing for more bodies; the full computation of `Model/UnbindEnergy` with `MaxSampleSizeOfPotentialEstimate` | the solver of C76 adds up the sample, the term for the particle itself cancels its own part; over all permutations each particle is at each place equally often (exchange of two places), so sums over samples, scaled, are right on average; with one element fixed in the sample, the same for the others; for whole unbinding the invariant of C76 with the errors of the samples in place of those of the solver, plus the rounding of each stored energy; the octree at any opening angle by its bound of C77; the order after `RefineBindingEnergyOrder` from the sort of the energies computed there |
| C51 | all steps from `NestSubhalos` to `UpdateTracks` as an inductive `Run` | invariant over runs, progress |

Deviations, findings and unproved parts are recorded in "Findings" below as the
work proceeds.

## Whole runs

`Props/Run.lean` composes the models of `NestSubhalos`, `MaskSubhalos`,
`RefineParticles`, `MergeSubhalos` and `UpdateTracks` into an inductive
predicate `Run` over any number of snapshots and processes (HBT.cpp:40-90).
Each snapshot takes as input an arbitrary redistribution of the subhaloes,
hosts, groups, births, thread orders, gravity results and sink decisions
(`Inputs`), restricted only by `InputsOk`. Most history properties (C21, C29,
C30, C32, C34, C51) are stated over `Run`. `Props/RunExample.lean` contains a
concrete run of four snapshots on two processes that meets all hypotheses.

`Model/Main.lean` goes further: it composes all steps of the main loop, from
the particles and groups that the readers leave on the processes to the files
of the catalogue, and sessions that load the last catalogue. `Props/Main.lean`
proves that every iteration is a snapshot of a `Run` (so the theorems over
`Run` hold for it), for any number of processes per session, and that this
survives stops at any moment and restarts (C58, C59). `Reach` is the set of
reachable disk states. `Props/MainExample.lean` executes two sessions inside
the kernel, with two and with one process. `Model/Input.lean` adds the reading of the files, and `Props/Input.lean` shows that
sessions on the files of a simulation are sessions of that kind (C63). `Props/InputExample.lean` has both formats.

## Programs of the processes

The models above describe collective operations for all processes at once. `Spec/Spmd.lean` gives a semantics
of message passing programs: each process runs its own program; a step is a collective call of all members of a
communicator (same communicator, kind, root, count, operation, fitting sizes), a split of the world, or a send,
receive or wait of one process. Any process may be arbitrarily slow. Messages are first-in first-out for each sender, receiver
and tag, and a wait for sends ends only when the messages are received or the library has buffered them (which it may
do for any messages). `Completes` says that every execution ends with all processes done and no message left.
`Lemmas/Spmd.lean` proves that the steps have the diamond property, so one complete execution is enough.
`Model/Spmd*.lean` contain the programs, written after the code with its MPI calls one by one (their local computations are
the functions of the other models); `Lemmas/Spmd*.lean` prove that whenever the all-processes model succeeds, these programs
have an execution with the same results. `Props/Spmd.lean` combines this with C58 (C60).

Collective calls need not synchronise: `Spec/SpmdWeak.lean` carries out each call by messages between its members, where
each member goes on as soon as it has received what the call gives it (and waits for further members or not,
as one likes); `C60_weak` and `C60_session_weak` show that programs that complete also complete in this way.

Assumed here: derived data types describe the data they are meant to; `MPI_Probe` reports the size of the message
received next; `MPI_Comm_split` returns when all have called it.

## Threads

The sequential models run the iterations of OpenMP loops in some order. `Spec/Threads.lean` gives a semantics of teams of
threads: any number of threads, each with any part of the iterations of each loop in any order; a step is one access of one
thread to one location (a member of a subhalo, an entry of a table); barriers as in the code. `Completes bad phases m m'`
says that in every execution no two threads are about to make accesses related by `bad` (`Races`: a data race; `Clashes`: a
data race other than two writes of one value), that every execution ends, with all iterations done, and with memory `m'`.
`Model/Threads.lean` contains the loop bodies. `Lemmas/Threads.lean` proves that iterations whose footprints do not
conflict commute, `Lemmas/ThreadsLoop.lean` and `ThreadsSim.lean` derive from it that a loop ends like its sequential model. The
footprints of the iterations over hosts are the members of the host, which uses that nests stay inside of hosts (an invariant
of `Run`).

`Model/ThreadsCentrals.lean` has the loops of `DecideCentrals` and `FeedCentrals`. The latter draws the index of a new subhalo
from a counter in a critical section (one atomic step). `Spec/Tickets.lean` has `CompletesTo`, for regions with more than one possible result;
`Lemmas/Tickets.lean` proves: if the region ends well for every order of drawing, with the drawn numbers given in advance, then every
execution ends like one of them.

## Findings (places where the code violates or restricts the natural property)

Proved with a witness in the model:

* C10_needs_sorted_ids, C10_negative_key_differs: the recursive index lookup is
  right only for ascending, non-negative query ids.
* C11_receive_total_overflow: with more than 2047 ranks the total of a receive
  can exceed `int`.
* C13_guard_bypassed, C13_newline_splits: the size guard of `SyncContainer` is
  computed in 32 bits; a string with a newline is split by `SyncVectorString`.
* C15_too_few_particles: fewer particles than processes reads `front()` of an
  empty vector.
* C17_low_ids_kept_partial, C17_high_ids_stop: ids outside the range of the
  snapshot are kept or stop the program.
* C22_lost_particle, C23_bad_host: a subhalo whose particle is nowhere gets host
  -2 and the table build reads out of range.
* C24_large_ratio: `MajorProgenitorMassRatio` above 1 leaves no candidate.
* C26_field_depth_stale: the depth of a subhalo without host is not reset.
* C28_zero_energy: a particle with energy exactly zero may be counted as bound.
* C29_precision_above_one, C29_small_minimum: `BoundMassPrecision>1` loops for
  ever or disrupts; `MinNumPartOfSub<2` makes orphans alive.
* C30_merging_shares: merging binds a particle to two resolved subhaloes of one
  host: unbound source particles of `a` are bound by its parent `b`, but `a`
  sinks into the grandparent `c`, which gets and binds the same particles.
* C30_consumed_shares: with consumed particles an orphan can hold several
  particles, is passed by in masking and may be resolved again with particles
  that are also bound elsewhere.
* C31_small_factor: `SourceSubRelaxFactor<1` cuts bound particles.

* C61_flag_race: `DetectTraps` (src/subhalo_merge.cpp:154) writes `Helpers[HostId].IsMerged=true` without synchronisation; two
  subhaloes sinking into the same one are a data race, of writes of the same value.
* C61_births_in_any_order: `FeedCentrals` numbers the new subhaloes in the order in which threads enter the critical section, so that
  track ids of births depend on the schedule.

Read in the source, outside the model or not yet formalised:

* C61: `random_shuffle` in `Unbind` (src/subhalo_unbind.cpp:302, with `MaxSampleSizeOfPotentialEstimate>0`) uses the generator of
  the process from several threads: results depend on the schedule. `#pragma omp paralle for`
  (src/subhalo_unbind.cpp:427) is not a directive, the loop is sequential.
* C34: a track that unbinding revives and merging kills in the same snapshot is
  marked dead in this snapshot, although it was unresolved at the end of the
  snapshot before; hence the two checkpoints per snapshot in `C34_death`.
* C25/C30: exclusivity holds only within one host; a field subhalo may share
  particles with others.
* `TruncateSource`: `Nbound*SourceSubRelaxFactor` is rounded in floating point.
* `MergeTo`: `Nbound` of the sink may exceed its number of particles until it is
  unbound again.
* `NearestNeighbourCollector_t` starts with `D2=-1`, so nothing is collected.
* `ReduceHost` (BranchStat) counts one branch too few.
* `MappedIndexTable_t::Fill` with one element; `CompIdAndOrder` without return.
* `linkedlist init`: `Range[i][j]=particles[0][j]`; periodic searches can visit a
  wrapped cell twice; `SearchShell` uses strict bounds.
* `vec_cross` loses its result; `BuildMPIDataType` registers `MboundType` as
  integer; `swap_Nbyte` uses `delete` for `new[]`; `DumpParameters` rounds.
* `SphericalOverdensitySize` (profile) and `AveragePosition` (no particles) leave
  their outputs untouched.
* `CountParticleTypes`: the parallel branch does not skip null ids.
* `MaxConcurrentIO=0` means no throttling.
* `SortSatellites` forms `begin()+1` of an empty list; `BindMemberLists` forms
  `&AllMembers[size]`; `ResizeAllMembers` subtracts pointers to freed memory.
* C35: the check of the total number of subhaloes does not notice a directory
  holding files of two different runs of the same snapshot (for example after a
  crash while overwriting) if the totals agree; nor stale `SrcSnap` files beside
  new `SubSnap` files. A missing file is not handled: the read continues with an
  invalid handle and uninitialised counts (modelled as undefined behaviour).
* C36: `MaxConcurrentIO = 0` lets all processes do IO at once.
* C45: `SnapshotIdList` lines are joined instead of the last one winning; a
  compulsory key without a value counts as given; a line holding only a carriage
  return (DOS files) is rejected as unknown; a negative `GroupParticleIdMask` and
  paths with blanks do not survive a dump.
* C46: a negative `MinSnapshotIndex` is accepted and, with an id list, used as a
  subscript; the Apostle reader looks snapshot names up by id, although the list
  is checked to have one entry per index.
* C38: without a box size, `init` starts the range of every axis from the first two
  coordinates of particle 0 (`Range[i][j]=particles[0][j]`), so that the cell width
  can be negative or zero: searches then miss particles, or divide by zero.
* C38: if a search region overflows the periodic box, cells are visited repeatedly
  and particles are reported repeatedly.
* C38: `SearchSphere`, `SearchCylinder` and `TagFriendsOfFriends` wrap separations
  with `HBTConfig.BoxSize`, `SearchShell` and the cells with the box size given to
  the list. The bounds of `SearchShell` are exclusive, its comment says inclusive.
* C40: with 1 to 99 particles `LinkedlistLinkGroup` divides by zero (`printstep`
  is 0). `GrpLen` is appended to, not cleared.
* C42: `GeoTree_t::NearestNeighbour` never returns: `NearestNeighbourCollector_t` starts
  with `D2=-1` and accepts only particles with `d2<D2`. Nothing in the repository calls it.
* C42: `SphDensity` never returns if the tree holds fewer than `NumNeighbourSPH` particles,
  and divides by zero if that many particles sit at the centre.
* C41: `Build` can only fail to end if `drand48` keeps reproducing the octants of a particle.
- **C43**: `AssignHaloTasks` (src/io/gadget_group_io.cpp:353) reads `FileOffsets[task.ifile_end-1]`. When a
  catalogue has at least one particle but fewer than there are processes, the first process gets no
  particle, `ifile_end` is 0 and the read is in front of the array (`C43_too_few_particles`). Early
  snapshots with a single small group on many processes meet this. Empty groups at the end of the
  catalogue are not read by any process; all others are.
- **C44**: `ReadSnapshot` and `ReadGroupParticles` (src/io/apostle_io.cpp:155, 257) skip a particle type whose
  data set is missing, although the array was sized from the announced number. The blanks stay in the
  list: as particles of zero mass at the origin, and as members of group 0 (`C44_missing_data_finding`).
- **C44**: a group found on one process only is placed by its unwrapped centre, a group in several pieces
  by its wrapped centre; at the edge of the box the two choices name different processes.
- **C53**: in a periodic box `AveragePosition` returns the mean relative to the first particle without
  wrapping it, so the centre may lie outside the box (`C53_may_leave_box`), and depends by a box length on which
  particle comes first.
- **C49**: `SphericalOverdensitySize` on a profile (src/snapshot.cpp:259-281) leaves its outputs untouched when no
  radius exceeds the threshold. `BoundM200Crit` and `BoundR200CritComoving` of a diffuse subhalo are then those of
  an earlier snapshot, instead of zero (`C49_stale_finding`). The version for particles of one mass returns zero.
- **C49**: `SphericalOverdensitySize2` reads `RSorted[-1]` for an empty list (`C49_iterative_empty_finding`). It is
  not called by the code.
- **C50**: in toolbox/analysis/BranchStat.cpp the slaves drop particles without a host before sending
  (`SendHost`), but the master still subtracts one "background" branch (`ReduceHost`, line 147). The number of
  branches is one too small at every snapshot for every input, and goes negative when nothing is found
  (`C50_count_finding`).
- **C50**: `Bcast` uses `Nfound` as offset and length but never sends it; slaves keep 0. After the first snapshot that
  settles a particle the master and the slaves disagree about the length of the broadcast
  (`C50_second_pass_finding`).
- **C50**: `MaxBId` is an `HBTInt` while branch numbers are `long` above 1e16. With 32-bit `HBTInt` the main branch is not
  removed (`C50_narrow_finding`). Which of several equally large branches is the main one depends on the
  iteration order of the hash map.
- **C54**: `CountParticleTypes` skips consumed particles (null id) for up to 100 bound particles only; the same test is
  commented out in the parallel version (src/subhalo.cpp:419), so larger subhaloes count them
  (`C54_null_finding`). Particle types are used as indices unchecked (`C54_bad_type`).
- **C55**: a bound particle with exactly the position of the most bound one gives 0/0 in the weighted inertia tensor
  (src/subhalo.cpp:386-393), and all six entries are not-a-number (`C55_coincident_finding`).
- **C48**: with `SofteningHalo` 0 the most bound particle, at distance 0 from the centre, gives a division by zero.
- **C57**: `LoadGadgetHeader` divides by the number of particles in the first file; an empty first file stops the program
  with a division by zero (`C57_empty_first_finding`).
- **C57**: with `HAS_THERMAL_ENERGY` the energy record is read even if a file holds no gas, where Gadget writes none: the
  reader runs past the end of the file (`C57_no_gas_finding`) or into the next record. The energies of other types are
  never set.
- **C57**: `MassDataPresent` uses `npartTotal`, which the code itself calls unreliable: totals that are multiples of 2^32
  make it skip the mass record and set masses to zero (`C57_totals_finding`). Under `DM_ONLY` a file without any mass
  entries but with variable dark matter masses elsewhere is read past its end.
- **C57**: in builds with 32-bit `HBTInt`, unsigned ids of 2^31 and more turn negative; 2^32-1 is the null id
  (`C57_unsigned_finding`).
- **C62**: a catalogue in a single file with a number in its name (`groups_NNN/subhalo_tab_NNN.0`) is found and counted, but
  `ReadV2V3` then prints its name without the number, because `FileCounts` is 1 (src/io/gadget_group_io.cpp:173-176): `sprintf` lacks
  an argument, which is undefined (`C62_single_numbered_file`).
- **C62**: an `ids` file that ends too early is not noticed by the process that reads up to its end: after the short `fread` the
  position is the end of the file, `BytesToEOF` gives 0, and the `fseek` calls have cleared the end-of-file indicator that is tested
  afterwards (src/io/gadget_group_io.cpp:246-262). The missing ids are 0 (`C62_short_ids_file`). In the same way 32-bit ids
  read in a format for 64-bit ids are accepted. The other direction is refused (`C62_long_ids_files`).
- **C62**: the total of the group lengths is computed inside of an `assert` (src/io/gadget_group_io.cpp:387); a build with `NDEBUG`
  would use the offsets stored in the files, which the comment there calls unreliable. The model is of a build with assertions.
- **C64**: `BuildMPIDataType` registers `MboundType`, six `float`, as six `MPI_HBT_INT` (src/subhalo.cpp:134). With `HBT_INT8` and without
  `DM_ONLY` the block has 48 bytes instead of 24 and covers `HostHaloId`, `Rank`, `Depth` and `LastMaxMass`, which have blocks of their own.
  The MPI standard forbids overlapping types for receiving (`C64_subhalo_type_overlaps`); a library that writes the blocks in order
  delivers the right data (`C64_messages_carry_every_member`).
- **C64**: the type of the Apostle header registers `BoxSize` twice (src/io/apostle_io.cpp:35, 37), with the same consequence
  (`C64_apostle_header_overlaps`). The type of the Gadget header sends one of six `npartTotal` (src/io/gadget_io.cpp:38,
  `C64_gadget_header_lacks_totals`); they are not used after the broadcast.
- **C65**: a host whose (up to twenty) core particles all have one position, or all have one velocity, has a spread of zero; the
  division gives an infinity or NaN and nothing ever sinks into it, not even a satellite with the very same coordinates
  (`C65_no_spread_no_sink`, src/subhalo_merge.cpp:129-134).
- **C66** (builds with `INCLUSIVE_MASS`): the loop that looks for the first particle not shared with smaller subhaloes does not stop if that
  is the most bound particle itself, because `break` is inside of `if(&p!=&subhalo.Particles[0])` (src/subhalo_tracking.cpp:587-596).
  The next particle that is not shared is then swapped to the front and becomes the position of the subhalo
  (`C66_most_bound_demoted`); this happens to every subhalo without inner ones. The loop also runs over unbound
  particles, which can come to the front (`C66_unbound_front`).
- **C67**: `H5Fopen` and `ReadAttribute` are not checked. If a file of an HDF5 snapshot is missing, the particle counts of it are
  uninitialised memory (src/io/apostle_io.cpp:112-118; `C67_missing_file_finding`). A dataset that is missing only gives a
  message (src/hdf_wrapper.h:44-51): the values are zero. Without `GroupNumber` every particle becomes a member of group 0
  (`C67_no_group_numbers_finding`).
- **C45**: configs/Example.conf:21 documents 16 as the default of `MaxConcurrentIO`; the program uses 10
  (src/config_parser.h:81, `C45_max_io_default`). The other defaults it documents are right (`C45_default_values`).
- **C68** (builds with `INCLUSIVE_MASS`): the consequence of the findings of C66 in whole runs: a particle that is not bound can end up at the front of a
  resolved subhalo, and the most bound one, shared with nobody, among the unbound ones; then the recorded mass is not that of the first `Nbound`
  particles (`C68_front_unbound`). What holds is that it is the mass of as many of its particles (`C68_every_state`).
- **C69** (toolbox/HBTReader.py): `GetNumberOfSubhalos` always fails for catalogues in several files: it reads `TotalNumberOfSubhalosInAllFiles`
  (line 194), the program writes `NumberOfSubhalosInAllFiles` (`C69_number_multi`). The number of files is taken from the directory of the last
  snapshot and used for all: a snapshot written by more processes is silently truncated (`C69_fewer_files`), one by fewer gives an error. Files left by an
  earlier session with more processes are read as part of the last catalogue (`C69_stale_files`), since the program does not remove them and the reader
  does not look at `NumberOfFiles`. A negative subhalo index gives the last subhalo of the first file that has any (`C69_negative_index`). A snapshot that
  was being written when the run stopped counts as the last one.
* C71: the numbers on the command line are read with `atoi`: what is not a number is taken for 0 without a message (`C71_not_a_number`: `HBT run.conf all`
  processes snapshot 0 again, over the existing catalogue), and `12-20` is read as 12 (`C71_text_after_number`). A last snapshot after `MaxSnapshotIndex` is noticed
  only when the run gets there (`C71_after_last`). With `MaxSnapshotIndex` = 2^31-1 the loop counter overflows.
* C74: `LoadVirial` sizes its vectors by the number of groups the first file announces and compares it with what it read only at the end: a catalogue with more groups
  is written beyond the end of the vectors (`C74_more_groups_than_announced`).
* C75: `position_modulus` promises [0, boxsize) (its comment) but gives `boxsize` for slightly negative positions, in every format (`C75_wrap_reaches_edge`; single
  precision: -1e-9 in a box of 1). `GetGrid` clamps, so that the program itself is not harmed. With `SourceSubRelaxFactor = 1` in a build with single precision reals
  `TruncateSource` drops a bound particle of a subhalo of 33554433 bound ones (`C75_source_loses`), and then `Nbound` exceeds the number of particles.
* C76: in `Unbind` (src/subhalo_unbind.cpp:310-422) `CorrectionLoop` is never reset, and the old frame is recorded only after iterations that removed fewer than half of the
  particles (and fewer than `MaxSampleSizeOfPotentialEstimate`). If a later iteration removes half or more, the next correction starts from a frame that is out of date, and all
  energies are wrong. `C76_stale_frame`: a subhalo is disrupted although two of its particles are bound to each other. `C76_unbinding` shows that this is the only cause.
  With `MaxSampleSizeOfPotentialEstimate` the old frame is also not recorded after iterations that removed as many particles as a sample has or more (`C80_unbinding` has the condition).
* C78: the Hubble rate in a catalogue is read and then computed anew from the density parameters and the scale factor in the file, which are rounded in a build with single
  precision: after loading it need not be the one that was used and saved (`C78_rounded_reload`). A process that gets no file to read keeps an uninitialised cosmology
  after loading (`C78_reload` says which ones). Neither harms a run: `C78_range` shows that the loaded cosmology is never used.
* C79: the energy stored for a disrupted subhalo (`SAVE_BINDING_ENERGY`) is that of the entry that `PartitionBindingEnergy` has left in front, while the particle kept is the most bound one of the
  snapshot before: in general the energy is that of another particle (`C79_disrupted_energy`).
* C79: in a build with both `SAVE_BINDING_ENERGY` and `INCLUSIVE_MASS`, `PurgeMostBoundParticles` exchanges the first particle of a subhalo for another and leaves `Energies`: the first energy
  written is then that of another particle (`C79_purge_disorder`). `C79_run` is about builds without `INCLUSIVE_MASS`.
* C80: with `MaxSampleSizeOfPotentialEstimate` = q below the number n of particles, the mass factor n/q (src/subhalo_unbind.cpp:338) is right on average over all shuffles, but a particle that is in the
  sample is left out of its own potential and still counted in n/q: over the shuffles that put it there the gravity on it is n(q-1)/(q(n-1)) of the right one (`C80_in_sample`); with q = 1 it is none.
* C80: with `UNBIND_WITH_THERMAL_ENERGY`, `RefineBindingEnergyOrder` (src/subhalo_unbind.cpp:247) orders the innermost particles by energies without the thermal part, whereas all other
  energies of unbinding have it (`C80_refined` states the order without it).
