import Verif.Model.MyMath
/-!
# Model of the cell-linked list: `src/linkedlist_base.{h,cpp}` and `src/linkedlist.{h,cpp}`

Coordinates are exact elements of an ordered field `K` with a floor function, positions are
functions `Fin 3 → K`. A position container (`PositionData_t`, `SnapshotPos_t`) is the list of its
positions. The conversion of `floor(...)` to `int` is assumed not to overflow.
-/
namespace HBT.Model
section Field
variable {K : Type} [Field K] [LinearOrder K] [FloorRing K]

/-- The members `NDiv`, `PeriodicBoundary`, `BoxSize`, `Range[.][0]`, `Step` of `LinkedlistBase_t`,
src/linkedlist_base.h:32-36 (`NDiv2` and `BoxHalf` are functions of these, `Range[.][1]` is only
read by `init`). -/
structure CellGrid (K : Type) where
  ndiv : Nat
  periodic : Bool
  box : K
  lo : Fin 3 → K
  step : Fin 3 → K

/-- `LinkedlistBase_t`, src/linkedlist_base.h:28-81: the grid, the particles it refers to, `HOC` and
`List`. -/
structure LinkedCells (K : Type) where
  grid : CellGrid K
  pts : List (Fin 3 → K)
  hoc : List Int
  next : List Int

/-- `RoundGridId`, src/linkedlist_base.h:83-87. -/
def roundGridId (ndiv : Nat) (i : Int) : Int :=
  if i < 0 then 0 else if i ≥ ndiv then (ndiv : Int) - 1 else i

/-- `ShiftGridId`, src/linkedlist_base.h:88-95. The `%` of C++ truncates. -/
def shiftGridId (ndiv : Nat) (i : Int) : Int :=
  let i := Int.tmod i ndiv
  if i < 0 then i + ndiv else i

/-- `FixGridId`, src/linkedlist_base.h:96-101. -/
def fixGridId (g : CellGrid K) (i : Int) : Int :=
  if g.periodic then shiftGridId g.ndiv i else roundGridId g.ndiv i

/-- `Sub2Ind`, src/linkedlist_base.h:102-105. -/
def sub2Ind (g : CellGrid K) (i j k : Int) : Int :=
  i + j * g.ndiv + k * ((g.ndiv : Int) * g.ndiv)

/-- `Distance2`, src/linkedlist_base.cpp:4-19: the nearest image of the list's own `BoxSize`. -/
def cellDistance2 (g : CellGrid K) (x y : Fin 3 → K) : K :=
  periodicDistance2 g.periodic g.box x y

/-- Loop 51-59 of `init`, src/linkedlist_base.cpp, for one coordinate `j`: `(Range[j][0],Range[j][1])`
is widened by the coordinates of particles `1, 2, ...`. Part of `initGrid`, src/linkedlist_base.cpp:20-62. -/
def widenRange (xs : List K) (r : K × K) : K × K :=
  xs.foldl (fun r x => if x < r.1 then (x, r.2) else if x > r.2 then (r.1, x) else r) r

/-- The part of `init` that sets the members, src/linkedlist_base.cpp:20-62. With a box size the grid
covers `[0,BoxSize]`; without, `Range[i][j]=particles[0][j]` (line 50: all three coordinates start
from the first two coordinates of particle 0) is widened by the other particles.
`ndiv` is non-negative; `ndiv=0` (division by zero, out of range `HOC`) and an `int` overflow of
`NDiv2*NDiv` are undefined behaviour, as is `particles[0]` of an empty sample. -/
def initGrid (ndiv : Nat) (pts : List (Fin 3 → K)) (box : K) (periodic : Bool) :
    Outcome (CellGrid K) :=
  if ndiv = 0 ∨ ndiv * ndiv * ndiv ≥ 2 ^ 31 then .ub
  else if box ≠ 0 then
    .ok { ndiv := ndiv, periodic := periodic, box := box, lo := fun _ => 0,
          step := fun _ => box / ndiv }
  else do
    let p0 ← Outcome.get pts 0
    let range := fun j : Fin 3 => widenRange ((pts.drop 1).map (· j)) (p0 0, p0 1)
    .ok { ndiv := ndiv, periodic := false, box := box, lo := fun j => (range j).1,
          step := fun j => ((range j).2 - (range j).1) / ndiv }

/-- `init`, src/linkedlist_base.cpp:20-66: the grid, `HOC.assign(NDiv2*NDiv,-1)` and
`List.resize(np)` (zero filled). -/
def initCells (ndiv : Nat) (pts : List (Fin 3 → K)) (box : K) (periodic : Bool) :
    Outcome (LinkedCells K) := do
  let g ← initGrid ndiv pts box periodic
  .ok { grid := g, pts := pts, hoc := List.replicate (ndiv * ndiv * ndiv) (-1),
        next := List.replicate pts.length 0 }

/-- `floor((x-Range[j][0])/Step[j])`, src/linkedlist_base.cpp:80, 104-105, 134-135, 186-187, 245-246.
With `Step[j]==0` the quotient is infinite or NaN and its conversion to an integer undefined. -/
def gridCoord (g : CellGrid K) (j : Fin 3) (x : K) : Outcome Int :=
  if g.step j = 0 then .ub else .ok ⌊(x - g.lo j) / g.step j⌋

/-- `HOC[ind]=...` with a signed index. Part of `insertParticle`, src/linkedlist_base.cpp:78-86. -/
def setHoc (v : List Int) (i : Int) (a : Int) : Outcome (List Int) :=
  if i < 0 then .ub else Outcome.set v i.toNat a

/-- Body of the loop of `build`, src/linkedlist_base.cpp:78-86, for particle `i` at `x`. -/
def insertParticle (ll : LinkedCells K) (x : Fin 3 → K) (i : Nat) : Outcome (LinkedCells K) := do
  let g := ll.grid
  let a ← gridCoord g 0 (x 0)
  let b ← gridCoord g 1 (x 1)
  let c ← gridCoord g 2 (x 2)
  let ind := sub2Ind g (fixGridId g a) (fixGridId g b) (fixGridId g c)
  let h ← Outcome.getI ll.hoc ind
  let next ← Outcome.set ll.next i h
  let hoc ← setHoc ll.hoc ind i
  .ok { ll with next := next, hoc := hoc }

/-- The particle loop of `build`, src/linkedlist_base.cpp:76-87, from particle `i` on. -/
def insertFrom (ll : LinkedCells K) : Nat → List (Fin 3 → K) → Outcome (LinkedCells K)
  | _, [] => .ok ll
  | i, x :: xs => do
    let ll ← insertParticle ll x i
    insertFrom ll (i + 1) xs

/-- `LinkedlistBase_t::build`, src/linkedlist_base.cpp:67-88. -/
def buildCells (ndiv : Nat) (pts : List (Fin 3 → K)) (box : K) (periodic : Bool) :
    Outcome (LinkedCells K) := do
  let ll ← initCells ndiv pts box periodic
  insertFrom ll 0 pts

/-- The loop `while(pid>=0) {...; pid=List[pid];}`, src/linkedlist_base.cpp:117-122, 147-172,
200-225, 258-288, src/linkedlist.cpp:84-92 and src/linkedlist_base.h:62-68: the particles visited.
The first argument bounds the number of steps. -/
def walkChain (next : List Int) : Nat → Int → Outcome (List Nat)
  | 0, _ => .diverge
  | fuel + 1, pid =>
    if pid < 0 then .ok []
    else do
      let n ← Outcome.getI next pid
      let rest ← walkChain next fuel n
      .ok (pid.toNat :: rest)

/-- The chain of cell `ind`. A chain without repetition has at most as many steps as particles.
Part of `visitedParticles`, src/linkedlist_base.cpp:112-118. -/
def chainOf (ll : LinkedCells K) (ind : Int) : Outcome (List Nat) := do
  let h ← Outcome.getI ll.hoc ind
  walkChain ll.next (ll.next.length + 1) h

/-- A loop whose body appends to an output. Part of `visitedParticles`, src/linkedlist_base.cpp:112-118. -/
def collectAll {α β : Type} (f : α → Outcome (List β)) : List α → Outcome (List β)
  | [] => .ok []
  | a :: as => do
    let r ← f a
    let s ← collectAll f as
    .ok (r ++ s)

/-- The values of `for(i=a;i<b+1;i++)`. Part of `visitedParticles`, src/linkedlist_base.cpp:112-118. -/
def intRange (a b : Int) : List Int := (List.range (b + 1 - a).toNat).map (fun n : Nat => a + n)

/-- `subbox_grid[d][0..1]`, src/linkedlist_base.cpp:102-111, 132-141, 184-193, 243-252. -/
def subboxGrid (g : CellGrid K) (rad center : Fin 3 → K) (d : Fin 3) : Outcome (Int × Int) := do
  let a ← gridCoord g d (center d - rad d)
  let b ← gridCoord g d (center d + rad d)
  .ok (if g.periodic then (a, b) else (fixGridId g a, fixGridId g b))

/-- The particles visited by the three nested cell loops with the chain loop inside,
src/linkedlist_base.cpp:112-118, 142-150, 195-203, 253-261 (`GetHOCSafe`, src/linkedlist_base.h:110-113),
in the order of the visits. The bodies of the loops do not change `HOC` and `List`. -/
def visitedParticles (ll : LinkedCells K) (rad center : Fin 3 → K) : Outcome (List Nat) := do
  let g := ll.grid
  let (i0, i1) ← subboxGrid g rad center 0
  let (j0, j1) ← subboxGrid g rad center 1
  let (k0, k1) ← subboxGrid g rad center 2
  collectAll (fun i => collectAll (fun j => collectAll (fun k =>
    chainOf ll (sub2Ind g (fixGridId g i) (fixGridId g j) (fixGridId g k)))
    (intRange k0 k1)) (intRange j0 j1)) (intRange i0 i1)

/-- Run a search: of the visited particles those passing the test are given to the collector with
the number the test computes. A `LocatedParticleCollector_t` (src/datatypes.h:207-225) appends. -/
def searchCells (ll : LinkedCells K) (rad center : Fin 3 → K) (test : (Fin 3 → K) → Option K) :
    Outcome (List (Nat × K)) := do
  let ps ← visitedParticles ll rad center
  collectAll (fun p => do
    let x ← Outcome.get ll.pts p
    .ok (match test x with
      | some r2 => [(p, r2)]
      | none => [])) ps

/-- `dx = pos[d]-x0; if(PeriodicBoundary) dx=NEAREST(dx);` with the box size `cfgBox` of the
configuration (macro of src/config_parser.h:142), src/linkedlist_base.cpp:153-154 and so on. -/
def offsetTo (periodic : Bool) (cfgBox : K) (pos center : Fin 3 → K) (d : Fin 3) : K :=
  if periodic then nearest cfgBox (pos d - center d) else pos d - center d

/-- The test of `SearchSphere` (and `TagFriendsOfFriends`), src/linkedlist_base.cpp:152-171, 265-283. -/
def sphereTest (periodic : Bool) (cfgBox radius : K) (center pos : Fin 3 → K) : Option K :=
  let dx := offsetTo periodic cfgBox pos center 0
  if dx > radius ∨ dx < -radius then none else
  let dy := offsetTo periodic cfgBox pos center 1
  if dy > radius ∨ dy < -radius then none else
  let dz := offsetTo periodic cfgBox pos center 2
  if dz > radius ∨ dz < -radius then none else
  let r2 := dx * dx + dy * dy + dz * dz
  if r2 < radius * radius then some r2 else none

/-- `SearchSphere(radius, center, collector)`, src/linkedlist_base.cpp:125-174. -/
def searchSphere (ll : LinkedCells K) (cfgBox radius : K) (center : Fin 3 → K) :
    Outcome (List (Nat × K)) :=
  searchCells ll (fun _ => radius) center (sphereTest ll.grid.periodic cfgBox radius center)

/-- The test of `SearchShell`, src/linkedlist_base.cpp:119-120. -/
def shellTest (g : CellGrid K) (rmin rmax : K) (center pos : Fin 3 → K) : Option K :=
  let dr2 := cellDistance2 g pos center
  if dr2 < rmax * rmax ∧ dr2 > rmin * rmin then some dr2 else none

/-- `SearchShell(rmin, rmax, center, collector)`, src/linkedlist_base.cpp:89-124. -/
def searchShell (ll : LinkedCells K) (cfgBox rmin rmax : K) (center : Fin 3 → K) :
    Outcome (List (Nat × K)) :=
  if rmin ≤ 0 then searchSphere ll cfgBox rmax center
  else searchCells ll (fun _ => rmax) center (shellTest ll.grid rmin rmax center)

/-- The test of `SearchCylinder`, src/linkedlist_base.cpp:205-224. -/
def cylinderTest (periodic : Bool) (cfgBox radiusZ radiusP : K) (center pos : Fin 3 → K) : Option K :=
  let dx := offsetTo periodic cfgBox pos center 0
  if dx > radiusP ∨ dx < -radiusP then none else
  let dy := offsetTo periodic cfgBox pos center 1
  if dy > radiusP ∨ dy < -radiusP then none else
  let dz := offsetTo periodic cfgBox pos center 2
  if dz > radiusZ ∨ dz < -radiusZ then none else
  let r2 := dx * dx + dy * dy
  if r2 < radiusP * radiusP then some r2 else none

/-- `radvec` of `SearchCylinder`, src/linkedlist_base.cpp:182. -/
def cylinderRad (radiusZ radiusP : K) (d : Fin 3) : K := if d = 2 then radiusZ else radiusP

/-- `SearchCylinder(radius_z, radius_p, center, collector)`, src/linkedlist_base.cpp:176-227. -/
def searchCylinder (ll : LinkedCells K) (cfgBox radiusZ radiusP : K) (center : Fin 3 → K) :
    Outcome (List (Nat × K)) :=
  searchCells ll (cylinderRad radiusZ radiusP) center
    (cylinderTest ll.grid.periodic cfgBox radiusZ radiusP center)

/-! ## Samples and parallel lists -/

/-- A `PositionSampleBase_t` is its size and `restore_id`, src/linkedlist.h:5-28. -/
structure PosSample where
  np : Nat
  restore : Nat → Nat

/-- `PositionSampleLattice_t::init` and `restore_id`, src/linkedlist.h:29-45. -/
def latticeSample (ithread nthread n0 : Nat) : Outcome PosSample :=
  if nthread = 0 then .ub
  else .ok { np := n0 / nthread + (if n0 % nthread > ithread then 1 else 0),
             restore := fun i => i * nthread + ithread }

/-- `PositionSampleBlock_t::init` and `restore_id`, src/linkedlist.h:46-60. -/
def blockSample (ithread nthread n0 : Nat) : Outcome PosSample := do
  let (first, last) ← assignTasks ithread nthread n0
  .ok { np := last - first, restore := fun i => first + i }

/-- The positions of a sample, `operator[]`, src/linkedlist.h:11-14, for all indices below `size()`. -/
def samplePositions (s : PosSample) (pts : List (Fin 3 → K)) : Outcome (List (Fin 3 → K)) :=
  collectAll (fun i => do let x ← Outcome.get pts (s.restore i); .ok [x]) (List.range s.np)

/-- Part of one thread in the constructor of `LinkedlistPara_t` or in `parallel_build`,
src/linkedlist.cpp:19-20, 68-69. -/
def buildThread (sample : Nat → Nat → Nat → Outcome PosSample) (nthread ndiv : Nat)
    (pts : List (Fin 3 → K)) (box : K) (periodic : Bool) (t : Nat) :
    Outcome (List (PosSample × LinkedCells K)) := do
  let s ← sample t nthread pts.length
  let xs ← samplePositions s pts
  let ll ← buildCells ndiv xs box periodic
  .ok [(s, ll)]

/-- The lists and samples of all threads, src/linkedlist.cpp:4-22, 55-70. The threads touch separate
elements of `LLs` and `Samples`. -/
def buildThreads (sample : Nat → Nat → Nat → Outcome PosSample) (nthread ndiv : Nat)
    (pts : List (Fin 3 → K)) (box : K) (periodic : Bool) :
    Outcome (List (PosSample × LinkedCells K)) :=
  collectAll (buildThread sample nthread ndiv pts box periodic) (List.range nthread)

/-- The constructor of `LinkedlistPara_t`, src/linkedlist.cpp:4-22. -/
def buildPara (nthread ndiv : Nat) (pts : List (Fin 3 → K)) (box : K) (periodic : Bool) :
    Outcome (List (PosSample × LinkedCells K)) :=
  buildThreads latticeSample nthread ndiv pts box periodic

/-- A search of `LinkedlistPara_t`, src/linkedlist.h:109-137 and src/linkedlist.cpp:35-50: every thread
searches its own list with `search`, the collectors restore the ids, and the finds reach the final
collector in the order `order` of the threads (the critical section; `order = 0,1,2,...` for the
serial versions). -/
def searchPara (search : LinkedCells K → Outcome (List (Nat × K)))
    (lls : List (PosSample × LinkedCells K)) (order : List Nat) : Outcome (List (Nat × K)) :=
  collectAll (fun t => do
    let (s, ll) ← Outcome.get lls t
    let found ← search ll
    .ok (found.map (fun f => (s.restore f.1, f.2)))) order

/-- Push of one particle, src/linkedlist.cpp:86-90: `List[true_pid]=hoc; hoc=true_pid;`. -/
def pushChain (next : List Int) (hoc : Int) : List Nat → Outcome (List Int × Int)
  | [] => .ok (next, hoc)
  | p :: ps => do
    let next ← Outcome.set next p hoc
    pushChain next p ps

/-- Body of the parallel loop of `merge` for one chain, src/linkedlist.cpp:80-93: over the threads,
walk the thread's chain and push the restored ids. -/
def mergeChain (ichain : Nat) : List (PosSample × LinkedCells K) → List Int × Int → Outcome (List Int × Int)
  | [], st => .ok st
  | (s, tl) :: rest, st => do
    let ps ← chainOf tl ichain
    let st ← pushChain st.1 st.2 (ps.map s.restore)
    mergeChain ichain rest st

/-- `Linkedlist_t::merge`, src/linkedlist.cpp:75-116: the iterations of the parallel loop run in the
order `order`. -/
def mergeCells (lls : List (PosSample × LinkedCells K)) : List Nat → LinkedCells K → Outcome (LinkedCells K)
  | [], ll => .ok ll
  | ichain :: rest, ll => do
    let h ← Outcome.get ll.hoc ichain
    let (next, h) ← mergeChain ichain lls (ll.next, h)
    let hoc ← Outcome.set ll.hoc ichain h
    mergeCells lls rest { ll with hoc := hoc, next := next }

/-- `Linkedlist_t::parallel_build`, src/linkedlist.cpp:52-74. `order` is the order in which the
iterations of the loop of `merge` run. -/
def parallelBuild (nthread ndiv : Nat) (pts : List (Fin 3 → K)) (box : K) (periodic : Bool)
    (order : List Nat) : Outcome (LinkedCells K) := do
  Outcome.assert (0 < box)
  let lls ← buildThreads blockSample nthread ndiv pts box periodic
  let ll ← initCells ndiv pts box periodic
  mergeCells lls order ll

/-! ## Friends of friends -/

/-- The chain loop of `TagFriendsOfFriends`, src/linkedlist_base.cpp:258-288, over the visited
particles: tags and friends so far. -/
def tagScan (ll : LinkedCells K) (cfgBox link : K) (center : Fin 3 → K) (grpid : Int) :
    List Nat → List Int × List Nat → Outcome (List Int × List Nat)
  | [], st => .ok st
  | p :: ps, (tags, friends) => do
    let t ← Outcome.get tags p
    if t ≥ 0 then tagScan ll cfgBox link center grpid ps (tags, friends)
    else do
      let x ← Outcome.get ll.pts p
      match sphereTest ll.grid.periodic cfgBox link center x with
      | none => tagScan ll cfgBox link center grpid ps (tags, friends)
      | some _ => do
        let tags ← Outcome.set tags p grpid
        tagScan ll cfgBox link center grpid ps (tags, friends ++ [p])

/-- The loop over the friends, src/linkedlist_base.cpp:291-295; `tag` is the recursive call. -/
def tagEach (tag : Nat → List Int → Outcome (List Int × Nat)) :
    List Nat → List Int × Nat → Outcome (List Int × Nat)
  | [], st => .ok st
  | p :: ps, (tags, n) => do
    let (tags, m) ← tag p tags
    tagEach tag ps (tags, n + m)

/-- `TagFriendsOfFriends(seed, grpid, group_tags, LinkLength)`, src/linkedlist_base.cpp:229-296. Returns
the tags and the number of friends. The first argument bounds the depth of the recursion. -/
def tagFriends (ll : LinkedCells K) (cfgBox link : K) (grpid : Int) :
    Nat → Nat → List Int → Outcome (List Int × Nat)
  | 0, _, _ => .diverge
  | fuel + 1, seed, tags => do
    let center ← Outcome.get ll.pts seed
    let ps ← visitedParticles ll (fun _ => link) center
    let (tags, friends) ← tagScan ll cfgBox link center grpid ps (tags, [])
    tagEach (tagFriends ll cfgBox link grpid fuel) friends (tags, friends.length)

/-- State of the loop of `LinkedlistLinkGroup`. src/linkedlist.cpp:120-148. -/
structure LinkState where
  tags : List Int
  lens : List Nat
  grpid : Nat
  progress : Nat

/-- The loop of `LinkedlistLinkGroup`, src/linkedlist.cpp:134-148, over the particles in the list.
`progress/printstep` divides by zero when `printstep` is 0. -/
def linkLoop (ll : LinkedCells K) (cfgBox radius : K) (printstep : Nat) :
    List Nat → LinkState → Outcome LinkState
  | [], st => .ok st
  | i :: is, st => do
    let t ← Outcome.get st.tags i
    if t < 0 then do
      if i ≥ st.progress ∧ printstep = 0 then .ub
      else do
        let progress := if i ≥ st.progress then st.progress + printstep else st.progress
        let tags ← Outcome.set st.tags i (st.grpid : Int)
        let (tags, n) ← tagFriends ll cfgBox radius st.grpid (st.tags.length + 1) i tags
        linkLoop ll cfgBox radius printstep is
          { tags := tags, lens := st.lens ++ [1 + n], grpid := st.grpid + 1, progress := progress }
    else linkLoop ll cfgBox radius printstep is st

/-- `LinkedlistLinkGroup(radius, snapshot, GrpLen, GrpTags, ndiv)`, src/linkedlist.cpp:118-151.
`box` and `periodic` are those of the configuration; `lens0` is the content of `GrpLen` before the
call (it is not cleared); progress output is left out. Returns `(GrpLen, GrpTags)`. -/
def linkGroups (nthread ndiv : Nat) (pts : List (Fin 3 → K)) (box : K) (periodic : Bool)
    (order : List Nat) (radius : K) (lens0 : List Nat) : Outcome (List Nat × List Int) := do
  let ll ← parallelBuild nthread ndiv pts box periodic order
  let printstep := pts.length / 100
  let st ← linkLoop ll box radius printstep (List.range pts.length)
    { tags := List.replicate pts.length (-1), lens := lens0, grpid := 0, progress := printstep }
  .ok (st.lens, st.tags)

end Field
end HBT.Model
