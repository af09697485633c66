import Verif.Spec.Threads
import Verif.Model.Merge
import Verif.Model.Update
/-!
# The parallel loops as programs of threads

The bodies of the OpenMP loops between `NestSubhalos` and `UpdateTracks` as programs whose steps are single
accesses to shared memory. A location is one member of one subhalo (a whole vector is one location), one list of the
membership table, one entry of `RootNestSize`, of `Helpers` or of `IsHeadSub`.

Simplified: a nest is read once before the loop over its entries (the code reads it again in each iteration; nothing changes it
meanwhile) and compacted vectors are written once. Where a function reads or writes some members of one subhalo
in an order that does not matter here (`Unbind`, `UpdateTrack`), all members are read first and all written at the end, which are more accesses than the
code makes. The parallel loops over particles inside `Unbind` are not modelled (with `omp_set_max_active_levels(1)`, HBT.cpp:22,
they run on one thread inside the loops modelled here). `fuel` bounds the depth of recursions; reaching it
is `fail`.
-/
namespace HBT.Threads
open HBT HBT.Model

/-- The members of `Subhalo_t` that are modelled. src/subhalo.h:24-110. -/
inductive Field
  | trackId | nbound | mbound | hostHaloId | rank | depth | lastMaxMass | snapMaxMass | snapIsolation | snapBirth | snapDeath | snapSink
  | sinkTrackId | particles | nested
  deriving DecidableEq, Repr

/-- The type of a member. src/subhalo.h:24-110. -/
@[reducible] def Field.Val (K D : Type) : Field → Type
  | .nbound => Nat
  | .mbound | .lastMaxMass => K
  | .particles => List (Particle D)
  | .nested => List Int
  | _ => Int

/-- The locations.
What the parallel loops of src/subhalo_tracking.cpp:99-127, 664-900, src/subhalo_unbind.cpp:471-515 and src/subhalo_merge.cpp:136-262 share. -/
inductive Loc
  /-- `Subhalos[i]` -/
  | sub (i : Nat) (f : Field)
  /-- `MemberTable.SubGroups[h]` -/
  | group (h : Nat)
  /-- `MemberTable.SubGroups[-1]` -/
  | field
  /-- `MemberTable.SubGroupsOfHeads[h]` -/
  | heads (h : Nat)
  /-- `RootNestSize[h]` -/
  | nestSize (h : Nat)
  /-- `Helpers[i].HostTrackId` -/
  | hostTrack (i : Nat)
  /-- the other members of `Helpers[i]` but `IsMerged`; their values enter through a parameter of `findSinkP` -/
  | core (i : Nat)
  /-- `Helpers[i].IsMerged` -/
  | isMerged (i : Nat)
  /-- `IsHeadSub[i]` -/
  | isHead (i : Nat)
  deriving DecidableEq, Repr

/-- The values of a location. Members of `Subhalo_t`: src/subhalo.h:24-110. -/
@[reducible] def Loc.Val (K D : Type) : Loc → Type
  | .sub _ f => f.Val K D
  | .group _ | .field | .heads _ => List Nat
  | .nestSize _ => Nat
  | .hostTrack _ => Int
  | .core _ => Unit
  | .isMerged _ | .isHead _ => Bool

variable {K D E S Q α : Type}

/-- What one thread does in an iteration.
The loops are those of src/subhalo_tracking.cpp:99-127, 664-900, src/subhalo_unbind.cpp:471-515 and src/subhalo_merge.cpp:136-262. -/
abbrev TProg (K D α : Type) := Prog Loc (Loc.Val K D) α

/-! ## Reading and writing subhaloes -/

/-- One member of a subhalo. src/subhalo.h:24-110. -/
def rd (i : Nat) (f : Field) : TProg K D (f.Val K D) := load (Loc.sub i f)
/-- Writing one member of a subhalo, src/subhalo.h:24-110. -/
def wr (i : Nat) (f : Field) (v : f.Val K D) : TProg K D Unit := store (Loc.sub i f) v

/-- All members of a subhalo. src/subhalo.h:24-110. -/
def readSub (i : Nat) : TProg K D (Sub K D) := do
  let trackId ← rd i .trackId
  let nbound ← rd i .nbound
  let mbound ← rd i .mbound
  let hostHaloId ← rd i .hostHaloId
  let rank ← rd i .rank
  let depth ← rd i .depth
  let lastMaxMass ← rd i .lastMaxMass
  let snapMaxMass ← rd i .snapMaxMass
  let snapIsolation ← rd i .snapIsolation
  let snapBirth ← rd i .snapBirth
  let snapDeath ← rd i .snapDeath
  let snapSink ← rd i .snapSink
  let sinkTrackId ← rd i .sinkTrackId
  let particles ← rd i .particles
  let nested ← rd i .nested
  pure { trackId, nbound, mbound, hostHaloId, rank, depth, lastMaxMass, snapMaxMass, snapIsolation, snapBirth, snapDeath, snapSink,
         sinkTrackId, particles, nested }

/-- Writing all members of a subhalo, src/subhalo.h:24-110. -/
def writeSub (i : Nat) (s : Sub K D) : TProg K D Unit := do
  wr i .trackId s.trackId
  wr i .nbound s.nbound
  wr i .mbound s.mbound
  wr i .hostHaloId s.hostHaloId
  wr i .rank s.rank
  wr i .depth s.depth
  wr i .lastMaxMass s.lastMaxMass
  wr i .snapMaxMass s.snapMaxMass
  wr i .snapIsolation s.snapIsolation
  wr i .snapBirth s.snapBirth
  wr i .snapDeath s.snapDeath
  wr i .snapSink s.snapSink
  wr i .sinkTrackId s.sinkTrackId
  wr i .particles s.particles
  wr i .nested s.nested

/-- A computation without shared memory.
(What an iteration computes between two accesses, for example src/subhalo_tracking.cpp:812-818.) -/
def lift : Outcome α → TProg K D α
  | .ok a => .ret a
  | _ => .fail

/-- A function of one subhalo, in place. Part of `unbindNodeP`, src/subhalo_unbind.cpp:444-446. -/
def applyP (g : Sub K D → Outcome (Sub K D)) (i : Nat) : TProg K D Unit := do
  let s ← readSub i
  let s' ← lift (g s)
  writeSub i s'

/-! ## `LevelUpDetachedSubhalos` and the heads, src/subhalo_tracking.cpp:669-688, 735-791 -/

/-- src/subhalo_tracking.cpp:746. -/
def isHeadP (i : Nat) : TProg K D Unit := do
  let r ← rd i .rank
  store (Loc.isHead i) (decide (r = 0))

/-- src/subhalo_tracking.cpp:752-754. -/
def centralRankP (h : Nat) : TProg K D Unit := do
  let g ← load (Loc.group h)
  match g with
  | [] => pure ()
  | c :: _ => wr c .rank 0

/-- src/subhalo_tracking.cpp:760, also line 120 (`AssignRanks`): the `j`-th field subhalo. -/
def fieldRankP (j : Nat) : TProg K D Unit := do
  let l ← load Loc.field
  match l[j]? with
  | none => .fail
  | some i => wr i .rank 0

/-- The loop of `LevelUpDetachedMembers`, src/subhalo_tracking.cpp:774-789. -/
def levelUpKidsP (rec : Nat → TProg K D Unit) (host : Int) : List Int → TProg K D (List Int)
  | [] => pure []
  | k :: ks =>
    if k < 0 then .fail
    else do
      let hh ← rd k.toNat .hostHaloId
      let r ← rd k.toNat .rank
      if hh ≠ host ∨ r = 0 then do
        if r ≠ 0 then wr k.toNat .rank 0 else pure ()
        rec k.toNat
        levelUpKidsP rec host ks
      else do
        rec k.toNat
        let kept ← levelUpKidsP rec host ks
        pure (k :: kept)

/-- `LevelUpDetachedMembers`, src/subhalo_tracking.cpp:771-791. -/
def levelUpP : Nat → Nat → TProg K D Unit
  | 0, _ => .fail
  | fuel + 1, id => do
    let host ← rd id .hostHaloId
    let ks ← rd id .nested
    let kept ← levelUpKidsP (levelUpP fuel) host ks
    wr id .nested kept

/-- src/subhalo_tracking.cpp:766-767. -/
def levelUpHeadP (fuel i : Nat) : TProg K D Unit := do
  let b ← load (Loc.isHead i)
  if b then levelUpP fuel i else pure ()

/-- The members with rank 0, src/subhalo_tracking.cpp:681-686. -/
def topsP : List Nat → TProg K D (List Nat)
  | [] => pure []
  | id :: ids => do
    let r ← rd id .rank
    let hs ← topsP ids
    pure (if r = 0 then id :: hs else hs)

/-- src/subhalo_tracking.cpp:680-686 (`SubGroupsOfHeads` has been cleared before). -/
def headGroupP (h : Nat) : TProg K D Unit := do
  let g ← load (Loc.group h)
  let hs ← topsP g
  store (Loc.heads h) hs

/-- `LevelUpDetachedSubhalos`, src/subhalo_tracking.cpp:742-768, and the loop of `NestSubhalos`, lines 677-687: the iterations between two barriers. `nsub` subhaloes, `nh`
haloes, `nfield` field subhaloes. -/
def nestPhases (fuel nsub nh nfield : Nat) : List (List (TProg K D Unit)) :=
  [(List.range nsub).map isHeadP, (List.range nh).map centralRankP, (List.range nfield).map fieldRankP,
    (List.range nsub).map (levelUpHeadP fuel), (List.range nh).map headGroupP]

/-! ## Recursion over nests -/

/-- The loop over the nest. `S` is local to the thread.
src/subhalo_tracking.cpp:804-805, src/subhalo_unbind.cpp:435-443, src/subhalo_merge.cpp:224-228. -/
def visitKidsP (rec : Nat → S → TProg K D S) (after : Nat → TProg K D Unit) : List Int → S → TProg K D S
  | [], s => pure s
  | k :: ks, s =>
    if k < 0 then .fail
    else do
      let s ← rec k.toNat s
      after k.toNat
      visitKidsP rec after ks s

/-- The recursive functions `Mask`, `RecursiveUnbind`, `MergeRecursive` (compare `Model.visit`).
src/subhalo_tracking.cpp:801-821, src/subhalo_unbind.cpp:432-447, src/subhalo_merge.cpp:222-232. -/
def visitP (enter : Nat → TProg K D Q) (after : Nat → Nat → TProg K D Unit) (leave : Q → Nat → S → TProg K D S) :
    Nat → Nat → S → TProg K D S
  | 0, _, _ => .fail
  | fuel + 1, id, s => do
    let q ← enter id
    let ks ← rd id .nested
    let s ← visitKidsP (visitP enter after leave fuel) (after id) ks s
    leave q id s

/-- `nest.insert(nest.end(), heads.begin()+1, heads.end())`. Part of `maskHostP`, src/subhalo_tracking.cpp:829-839. -/
def glueP (c : Nat) : List Nat → TProg K D Unit
  | [] => .fail
  | _ :: others => do
    let n ← rd c .nested
    wr c .nested (n ++ others.map (fun h : Nat => (h : Int)))

/-- `nest.resize(n)`. Part of `maskHostP`, src/subhalo_tracking.cpp:829-839. -/
def unglueP (c n : Nat) : TProg K D Unit := do
  let l ← rd c .nested
  wr c .nested (l.take n)

/-! ## `MaskSubhalos`, src/subhalo_tracking.cpp:793-841 -/

/-- src/subhalo_tracking.cpp:807-820. -/
def maskOneP (id : Nat) (excl : List Int) : TProg K D (List Int) := do
  let nb ← rd id .nbound
  if nb ≤ 1 then pure excl
  else do
    let ps ← rd id .particles
    wr id .particles (maskParticles excl ps).2
    pure (maskParticles excl ps).1

/-- `Mask`, src/subhalo_tracking.cpp:801-821. The exclusion list is local to the iteration. -/
def maskP (fuel id : Nat) (excl : List Int) : TProg K D (List Int) :=
  visitP (fun _ => pure ()) (fun _ _ => pure ()) (fun _ => maskOneP) fuel id excl

/-- src/subhalo_tracking.cpp:829-839. -/
def maskHostP (fuel h : Nat) : TProg K D Unit := do
  let g ← load (Loc.group h)
  match g with
  | [] => pure ()
  | c :: _ => do
    let n ← rd c .nested
    let hs ← load (Loc.heads h)
    glueP c hs
    let _ ← maskP fuel c []
    unglueP c n.length

/-- `MaskSubhalos`. src/subhalo_tracking.cpp:824-841. -/
def maskPhases (fuel nh : Nat) : List (List (TProg K D Unit)) := [(List.range nh).map (maskHostP fuel)]

/-! ## `RefineParticles`, src/subhalo_unbind.cpp:432-516 -/

/-- src/subhalo_unbind.cpp:434-436. -/
def backupP (id : Nat) : TProg K D (Option (List (Particle D))) := do
  let nb ← rd id .nbound
  if nb ≤ 1 then do
    let ps ← rd id .particles
    pure (some ps)
  else pure none

/-- src/subhalo_unbind.cpp:442. -/
def feedHostP (id c : Nat) : TProg K D Unit := do
  let ps ← rd c .particles
  let nb ← rd c .nbound
  if ps.length < nb then .fail
  else do
    let own ← rd id .particles
    wr id .particles (own ++ ps.drop nb)

/-- src/subhalo_unbind.cpp:444-446. -/
def unbindNodeP [LT E] [DecidableLT E] [Zero E] [MassSum K] (cfg : UnbindConfig) (env : Nat → UnbindEnv K D E) (snap : Int)
    (backup : Option (List (Particle D))) (id : Nat) (_ : Unit) : TProg K D Unit :=
  match backup with
  | none => applyP (unbindFull cfg (env id) snap) id
  | some own => applyP (fun s => do
      let s' ← unbindFull cfg (env id) snap (s.withParticles own)
      .ok (s'.withParticles s.particles)) id

/-- `RecursiveUnbind`, src/subhalo_unbind.cpp:432-447. -/
def recursiveUnbindP [LT E] [DecidableLT E] [Zero E] [MassSum K] (cfg : UnbindConfig) (env : Nat → UnbindEnv K D E) (snap : Int)
    (fuel id : Nat) : TProg K D Unit :=
  visitP backupP feedHostP (unbindNodeP cfg env snap) fuel id ()

/-- src/subhalo_unbind.cpp:479-489. -/
def refineHostP [LT E] [DecidableLT E] [Zero E] [MassSum K] (cfg : UnbindConfig) (env : Nat → UnbindEnv K D E) (snap : Int)
    (fuel h : Nat) : TProg K D Unit := do
  let g ← load (Loc.group h)
  match g with
  | [] => pure ()
  | c :: _ => do
    let n ← rd c .nested
    let hs ← load (Loc.heads h)
    glueP c hs
    recursiveUnbindP cfg env snap fuel c
    unglueP c n.length

/-- src/subhalo_unbind.cpp:499-500: the `j`-th field subhalo. -/
def unbindFieldP [LT E] [DecidableLT E] [Zero E] [MassSum K] (cfg : UnbindConfig) (env : Nat → UnbindEnv K D E) (snap : Int)
    (j : Nat) : TProg K D Unit := do
  let l ← load Loc.field
  match l[j]? with
  | none => .fail
  | some i => applyP (unbindFull cfg (env i) snap) i

/-- src/subhalo_unbind.cpp:513. -/
def truncP (cfg : UnbindConfig) (i : Nat) : TProg K D Unit := applyP (fun s => .ok (truncateSource cfg s)) i

/-- `RefineParticles`, src/subhalo_unbind.cpp:471-515. The loop over the field subhaloes has `nowait`, so that the loop over the `nnew` new subhaloes
(after the `nold` others) may start before it has ended. -/
def refinePhases [LT E] [DecidableLT E] [Zero E] [MassSum K] (cfg : UnbindConfig) (env : Nat → UnbindEnv K D E) (snap : Int)
    (fuel nh nfield nold nnew : Nat) : List (List (TProg K D Unit)) :=
  [(List.range nh).map (refineHostP cfg env snap fuel),
    (List.range nfield).map (unbindFieldP cfg env snap) ++
      (List.range nnew).map (fun k => applyP (unbindFull cfg (env (nold + k)) snap) (nold + k)),
    (List.range (nold + nnew)).map (truncP cfg)]

/-! ## `MergeSubhalos`, src/subhalo_merge.cpp:136-262 -/

/-- `GlueHeadNests`, src/subhalo_tracking.cpp:848-860. -/
def glueHostP (h : Nat) : TProg K D Unit := do
  let g ← load (Loc.group h)
  match g with
  | [] => store (Loc.nestSize h) 0
  | c :: _ => do
    let n ← rd c .nested
    store (Loc.nestSize h) n.length
    let hs ← load (Loc.heads h)
    glueP c hs

/-- src/subhalo_merge.cpp:169-170. -/
def fillNestP (i : Nat) : List Int → TProg K D Unit
  | [] => pure ()
  | k :: ks =>
    if k < 0 then .fail
    else do
      store (Loc.hostTrack k.toNat) (i : Int)
      fillNestP i ks

/-- `FillHostTrackIds`, src/subhalo_merge.cpp:166-171. -/
def fillHostP (i : Nat) : TProg K D Unit := do
  let ks ← rd i .nested
  fillNestP i ks

/-- `FillCores`, src/subhalo_merge.cpp:178-179: which locations are used. -/
def coreP (i : Nat) : TProg K D Unit := do
  let _ ← rd i .nbound
  let _ ← rd i .particles
  store (Loc.core i) ()

/-- The loop `while(HostId>=0)` of `DetectTraps`, src/subhalo_merge.cpp:144-159. -/
def findSinkP (sunk : Nat → Nat → Bool) (i : Nat) : Nat → Int → TProg K D (Option Nat)
  | 0, _ => .fail
  | fuel + 1, h =>
    if h < 0 then pure none
    else do
      let nb ← rd h.toNat .nbound
      if 1 < nb then do
        let _ ← load (Loc.core h.toNat)
        if sunk i h.toNat then pure (some h.toNat)
        else do
          let h' ← load (Loc.hostTrack h.toNat)
          findSinkP sunk i fuel h'
      else do
        let h' ← load (Loc.hostTrack h.toNat)
        findSinkP sunk i fuel h'

/-- `DetectTraps`, src/subhalo_merge.cpp:142-159. -/
def detectP (sunk : Nat → Nat → Bool) (snap : Int) (fuel i : Nat) : TProg K D Unit := do
  let sink ← rd i .sinkTrackId
  if sink ≠ nullTrack then pure ()
  else do
    let h ← load (Loc.hostTrack i)
    let t ← findSinkP sunk i fuel h
    match t with
    | none => pure ()
    | some h => do
      wr i .sinkTrackId (h : Int)
      wr i .snapSink snap
      let nb ← rd i .nbound
      if 1 < nb then store (Loc.isMerged h) true else pure ()

/-- `MergeTo`, src/subhalo_merge.cpp:245-262, of `id` to `host`. -/
def mergeToP [MassSum K] (mass : D → K) (id host : Nat) : TProg K D Unit := do
  let nb ← rd id .nbound
  if nb ≤ 1 then pure ()
  else do
    let ps ← rd id .particles
    let hps ← rd host .particles
    wr host .particles (hps ++ (maskParticles (hps.map Particle.id) ps).2)
    let hnb ← rd host .nbound
    wr host .nbound (hnb + nb)
    match ps with
    | [] => .fail
    | p :: _ => do
      wr id .particles [p]
      wr id .nbound 1
      wr id .mbound (mass p.data)

/-- src/subhalo_merge.cpp:227-231. -/
def mergeOneP [MassSum K] (mass : D → K) (snap : Int) (id : Nat) (_ : Unit) : TProg K D Unit := do
  let sink ← rd id .sinkTrackId
  let death ← rd id .snapDeath
  if sink ≠ nullTrack ∧ death = nullSnap then
    if sink = (id : Int) ∨ sink < 0 then .fail
    else do
      mergeToP mass id sink.toNat
      wr id .snapDeath snap
  else pure ()

/-- src/subhalo_merge.cpp:204-206 and `MergeRecursive`, lines 222-232. -/
def mergeHostP [MassSum K] (mass : D → K) (snap : Int) (fuel h : Nat) : TProg K D Unit := do
  let g ← load (Loc.group h)
  match g with
  | [] => pure ()
  | c :: _ => visitP (fun _ => pure ()) (fun _ _ => pure ()) (fun _ => mergeOneP mass snap) fuel c ()

/-- src/subhalo_merge.cpp:209-210. -/
def unbindMergedP [LT E] [DecidableLT E] [Zero E] [MassSum K] (cfg : UnbindConfig) (env : Nat → UnbindEnv K D E) (snap : Int)
    (i : Nat) : TProg K D Unit := do
  let b ← load (Loc.isMerged i)
  if b then applyP (unbindFull cfg (env i) snap) i else pure ()

/-- src/subhalo_merge.cpp:213-214. -/
def truncMergedP (cfg : UnbindConfig) (i : Nat) : TProg K D Unit := do
  let b ← load (Loc.isMerged i)
  if b then truncP cfg i else pure ()

/-- `UnglueHeadNests`, src/subhalo_tracking.cpp:867-870. -/
def unglueHostP (h : Nat) : TProg K D Unit := do
  let g ← load (Loc.group h)
  match g with
  | [] => pure ()
  | c :: _ => do
    let n ← load (Loc.nestSize h)
    unglueP c n

/-- `MergeSubhalos`, src/subhalo_merge.cpp:193-219. -/
def mergePhases [LT E] [DecidableLT E] [Zero E] [MassSum K] (cfg : UnbindConfig) (env : Nat → UnbindEnv K D E) (mass : D → K) (on : Bool)
    (sunk : Nat → Nat → Bool) (snap : Int) (fuel nsub nh : Nat) : List (List (TProg K D Unit)) :=
  [(List.range nh).map glueHostP, (List.range nsub).map fillHostP, (List.range nsub).map coreP,
    (List.range nsub).map (detectP sunk snap fuel)] ++
  (if on then [(List.range nh).map (mergeHostP mass snap fuel), (List.range nsub).map (unbindMergedP cfg env snap),
    (List.range nsub).map (truncMergedP cfg)] else []) ++
  [(List.range nh).map unglueHostP]

/-! ## `UpdateTracks`, src/subhalo_tracking.cpp:880-900 -/

/-- The masses that the comparisons of `std::sort` read. Part of `sortGroupP`, src/subhalo_tracking.cpp:99-105. -/
def massesP : List Nat → TProg K D Unit
  | [] => pure ()
  | i :: is => do
    let _ ← rd i .mbound
    massesP is

/-- src/subhalo_tracking.cpp:99-105 for one host. `sort` is the order that `std::sort` gives for the masses (no iteration changes a mass). -/
def sortGroupP (sort : List Nat → List Nat) (h : Nat) : TProg K D Unit := do
  let g ← load (Loc.group h)
  massesP g
  store (Loc.group h) (sort g)

/-- The iteration `-1` of src/subhalo_tracking.cpp:103-104. -/
def sortFieldP (sort : List Nat → List Nat) : TProg K D Unit := do
  let g ← load Loc.field
  massesP g
  store Loc.field (sort g)

/-- `LevelUpDetachedMembers` for each of the listed subhaloes, src/subhalo_tracking.cpp:726-727. -/
def levelUpEachP (fuel : Nat) : List Nat → TProg K D Unit
  | [] => pure ()
  | id :: ids => do
    levelUpP fuel id
    levelUpEachP fuel ids

/-- `ExtendCentralNest`, src/subhalo_tracking.cpp:711-729. -/
def extendP (fuel h : Nat) : TProg K D Unit := do
  let g ← load (Loc.group h)
  let hs ← load (Loc.heads h)
  match g with
  | [] => pure ()
  | [_] => pure ()
  | c :: _ => do
    let r ← rd c .rank
    if r = 0 then do
      let n ← rd c .nested
      wr c .nested (n ++ (hs.filter (fun h => decide (h ≠ c))).map (fun h : Nat => (h : Int)))
    else do
      wr c .rank 0
      levelUpEachP fuel hs
      let n ← rd c .nested
      wr c .nested (n ++ hs.map (fun h : Nat => (h : Int)))

/-- src/subhalo_tracking.cpp:126-127. -/
def ranksP : List Nat → Nat → TProg K D Unit
  | [], _ => pure ()
  | id :: ids, i => do
    wr id .rank (i : Int)
    ranksP ids (i + 1)

/-- `AssignRanks`, src/subhalo_tracking.cpp:125-127. -/
def rankGroupP (h : Nat) : TProg K D Unit := do
  let g ← load (Loc.group h)
  ranksP g 0

/-- The loop of `FillDepthRecursive`, src/subhalo_tracking.cpp:694-697. -/
def depthKidsP (rec : Nat → TProg K D Unit) : List Int → TProg K D Unit
  | [] => pure ()
  | k :: ks =>
    if k < 0 then .fail
    else do
      rec k.toNat
      depthKidsP rec ks

/-- `FillDepthRecursive`, src/subhalo_tracking.cpp:690-698. -/
def depthP : Nat → Int → Nat → TProg K D Unit
  | 0, _, _ => .fail
  | fuel + 1, depth, id => do
    wr id .depth depth
    let ks ← rd id .nested
    depthKidsP (depthP fuel (depth + 1)) ks

/-- `FillDepth`, src/subhalo_tracking.cpp:704. -/
def depthHostP (fuel h : Nat) : TProg K D Unit := do
  let g ← load (Loc.group h)
  match g with
  | [] => pure ()
  | c :: _ => depthP fuel 0 c

/-- src/subhalo_tracking.cpp:892-897. `halo_snap` is not changed meanwhile. -/
def refreshP [LE K] [DecidableLE K] (snap : Int) (haloIds : List Int) (i : Nat) : TProg K D Unit :=
  applyP (fun s => restoreHost haloIds (updateTrack snap s)) i

/-- `subid=Subhalos[subid].TrackId`, src/subhalo_tracking.cpp:664-665. -/
def globalIdsP : List Int → TProg K D (List Int)
  | [] => pure []
  | k :: ks =>
    if k < 0 then .fail
    else do
      let t ← rd k.toNat .trackId
      let ts ← globalIdsP ks
      pure (t :: ts)

/-- `GlobalizeTrackReferences`, src/subhalo_tracking.cpp:661-665. -/
def globalizeP (snap : Int) (i : Nat) : TProg K D Unit := do
  let sn ← rd i .snapSink
  if sn = snap then do
    let k ← rd i .sinkTrackId
    if k < 0 then .fail
    else do
      let t ← rd k.toNat .trackId
      wr i .sinkTrackId t
  else pure ()
  let ks ← rd i .nested
  let ts ← globalIdsP ks
  wr i .nested ts

/-- `UpdateTracks`, src/subhalo_tracking.cpp:880-900. -/
def updatePhases [LE K] [DecidableLE K] (sort : List Nat → List Nat) (snap : Int) (haloIds : List Int) (fuel nsub nh nfield : Nat) :
    List (List (TProg K D Unit)) :=
  [sortFieldP sort :: (List.range nh).map (sortGroupP sort), (List.range nh).map (extendP fuel), (List.range nfield).map fieldRankP,
    (List.range nh).map rankGroupP, (List.range nh).map (depthHostP fuel), (List.range nsub).map (refreshP snap haloIds),
    (List.range nsub).map (globalizeP snap)]

/-! ## The memory -/

/-- What is shared. src/subhalo.h:207-215. -/
structure World (K D : Type) where
  subs : List (Sub K D)
  groups : List (List Nat)
  field : List Nat
  heads : List (List Nat)
  nestSize : List Nat
  hostTrack : List Int
  isMerged : List Bool
  isHead : List Bool

/-- The members of a subhalo. src/subhalo.h:24-110. -/
def Field.get : (f : Field) → Sub K D → f.Val K D
  | .trackId, s => s.trackId
  | .nbound, s => s.nbound
  | .mbound, s => s.mbound
  | .hostHaloId, s => s.hostHaloId
  | .rank, s => s.rank
  | .depth, s => s.depth
  | .lastMaxMass, s => s.lastMaxMass
  | .snapMaxMass, s => s.snapMaxMass
  | .snapIsolation, s => s.snapIsolation
  | .snapBirth, s => s.snapBirth
  | .snapDeath, s => s.snapDeath
  | .snapSink, s => s.snapSink
  | .sinkTrackId, s => s.sinkTrackId
  | .particles, s => s.particles
  | .nested, s => s.nested

/-- The memory that holds it. src/subhalo.h:207-215. -/
def memOf (w : World K D) : Mem Loc (Loc.Val K D)
  | .sub i f => (w.subs[i]?).map f.get
  | .group h => w.groups[h]?
  | .field => some w.field
  | .heads h => w.heads[h]?
  | .nestSize h => w.nestSize[h]?
  | .hostTrack i => w.hostTrack[i]?
  | .core i => (w.hostTrack[i]?).map (fun _ => ())
  | .isMerged i => w.isMerged[i]?
  | .isHead i => w.isHead[i]?

end HBT.Threads
