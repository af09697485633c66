import Verif.Model.MyMath
import Mathlib.Data.Fin.VecNotation
/-!
# Model of the oct-trees: `src/oct_tree.h`, `src/oct_tree.tpp`, `src/gravity_tree.cpp`,
`src/geometric_tree.cpp` and the collectors of `src/datatypes.h`

Reals are exact (elements of an ordered field); `float` storage of `way.s` and `way.len` is not
modelled. Node numbers are `N + k` with `N` the number of particles and `k` an index into `Cells`
(`Nodes = Cells.data()-N`, src/oct_tree.tpp:13).
-/
namespace HBT.Model

/-- `TreeCell_t::way`, src/oct_tree.h:30-37. `A` is the mass type. -/
structure Way (K A : Type) where
  len : K
  sibling : Int
  nextnode : Int
  mass : A
  s : Fin 3 → K

/-- The union `TreeCell_t`, src/oct_tree.h:26-42. `sons`: the array of sons is live. `opened`:
`way` is live, but `mass` and `s` have not been stored yet. `way`: `way` is complete. Reading a part
that is not live is undefined behaviour in the model. -/
inductive TreeCell (K A : Type) where
  | sons (l : List Int)
  | opened (len : K) (sibling nextnode : Int)
  | way (w : Way K A)

/-- `Cells` and `NextnodeFromParticle`, src/oct_tree.h:50-52. -/
structure Tree (K A : Type) where
  cells : List (TreeCell K A)
  next : List Int

section Field
variable {K A S : Type} [Field K] [LinearOrder K]

/-- Read access `Nodes[N+k].sons`. Part of `insertLoop`, src/oct_tree.tpp:63-137. -/
def readSons (cells : List (TreeCell K A)) (k : Nat) : Outcome (List Int) :=
  match cells[k]? with
  | some (.sons l) => .ok l
  | _ => .ub

/-- `Nodes[N+k].sons[j]=v`. Part of `insertLoop`, src/oct_tree.tpp:63-137. -/
def writeSon (cells : List (TreeCell K A)) (k j : Nat) (v : Int) : Outcome (List (TreeCell K A)) := do
  let l ← readSons cells k
  let l ← Outcome.set l j v
  Outcome.set cells k (.sons l)

/-- Read access to a complete `Nodes[N+k].way`. Part of `processNode`, src/geometric_tree.cpp:22-42. -/
def readWay (cells : List (TreeCell K A)) (k : Nat) : Outcome (Way K A) :=
  match cells[k]? with
  | some (.way w) => .ok w
  | _ => .ub

/-- The octant of `x` around `center`: `sub` in src/oct_tree.tpp:68-95 and 126-132. -/
def octant (x center : Fin 3 → K) : Nat :=
  (if x 0 > center 0 then 1 else 0) + (if x 1 > center 1 then 2 else 0) +
    (if x 2 > center 2 then 4 else 0)

/-- The centre of that octant: updates of `center` in src/oct_tree.tpp:69-95. -/
def octantCenter (x center : Fin 3 → K) (lenhalf : K) : Fin 3 → K :=
  fun d => if x d > center d then center d + lenhalf else center d - lenhalf

/-- `sub = (HBTInt)(8.0*drand48()); if(sub>=8) sub=7`, src/oct_tree.tpp:118-120. `rand n` is
`(HBTInt)(8.0*drand48())` at the `n`-th call of `drand48`. -/
def randomOctant (rand : Nat → Nat) (n : Nat) : Nat :=
  if rand n ≥ 8 then 7 else rand n

/-- The loop `while(1)` that inserts particle `i`, src/oct_tree.tpp:63-137, from node `N+node` on.
`draws` counts the calls of `drand48`. `AppendCell` (9-14) may move the vector, the code re-reads
`Nodes` afterwards. -/
def insertLoop (resHalf : K) (rand : Nat → Nat) (pts : List (Fin 3 → K)) (N i : Nat) :
    Nat → Nat → List (TreeCell K A) → Nat → K → (Fin 3 → K) → Outcome (List (TreeCell K A) × Nat)
  | 0, _, _, _, _, _ => .diverge
  | fuel + 1, draws, cells, node, lenhalf, center => do
    let lenhalf := lenhalf / 2
    let x ← Outcome.get pts i
    let sub := octant x center
    let center := octantCenter x center lenhalf
    let sons ← readSons cells node
    let subid ← Outcome.get sons sub
    if subid < 0 then do
      let cells ← writeSon cells node sub i
      .ok (cells, draws)
    else if subid < N then do
      let new := cells.length
      let cells := cells ++ [.sons (List.replicate 8 (-1))]
      let cells ← writeSon cells node sub (N + new : Nat)
      if lenhalf < resHalf then do
        let cells ← writeSon cells new (randomOctant rand draws) subid
        insertLoop resHalf rand pts N i fuel (draws + 1) cells new lenhalf center
      else do
        let y ← Outcome.get pts subid.toNat
        let cells ← writeSon cells new (octant y center) subid
        insertLoop resHalf rand pts N i fuel draws cells new lenhalf center
    else insertLoop resHalf rand pts N i fuel draws cells (subid.toNat - N) lenhalf center

/-- The loop `for(i = 0; i < NumberOfParticles; i++)` over particles, src/oct_tree.tpp:56-138, for the
particles of the list. `fuel` bounds the steps of each insertion. -/
def insertAll (resHalf : K) (rand : Nat → Nat) (pts : List (Fin 3 → K)) (N : Nat) (lenhalf : K)
    (center : Fin 3 → K) (fuel : Nat) : List Nat → Nat → List (TreeCell K A) →
    Outcome (List (TreeCell K A) × Nat)
  | [], draws, cells => .ok (cells, draws)
  | i :: is, draws, cells => do
    let r ← insertLoop resHalf rand pts N i fuel draws cells 0 lenhalf center
    insertAll resHalf rand pts N lenhalf center fuel is r.2 r.1

/-- One step of the bounding box of one axis, src/oct_tree.tpp:37-40. -/
def extend (b : K × K) (x : K) : K × K :=
  if x > b.2 then (b.1, x) else if x < b.1 then (x, b.2) else b

/-- `xmin[d]`, `xmax[d]`, src/oct_tree.tpp:30-41, of the particles `first :: rest`. -/
def extent (first : Fin 3 → K) (rest : List (Fin 3 → K)) (d : Fin 3) : K × K :=
  rest.foldl (fun b x => extend b (x d)) (first d, first d)

/-- `Len`, src/oct_tree.tpp:43-46. -/
def maxExtension (e : Fin 3 → K × K) : K :=
  let len := (e 0).2 - (e 0).1
  let len := if (e 1).2 - (e 1).1 > len then (e 1).2 - (e 1).1 else len
  if (e 2).2 - (e 2).1 > len then (e 2).2 - (e 2).1 else len

/-- What `GravityTree_t` and `GeoTree_t` do differently in `UpdateInternalNodes`/`ProcessNode`:
the accumulators `S` (empty value, a particle, a finished daughter node), the centre handed to a
divided daughter node, and the final `way.mass` and `way.s`. Part of `childCell`, src/geometric_tree.cpp:31-38. -/
structure TreeRule (K A S : Type) where
  empty : S
  addParticle : S → Nat → Outcome S
  addNode : S → A → (Fin 3 → K) → S
  childCenter : (Fin 3 → K) → Nat → K → (Fin 3 → K)
  finish : S → (Fin 3 → K) → A × (Fin 3 → K)

/-- `len` and `center` handed to a daughter node, `GeoTree_t::ProcessNode` src/geometric_tree.cpp:31-38,
`GravityTree_t::ProcessNode` src/gravity_tree.cpp:37-40. -/
def childCell (rule : TreeRule K A S) (res len : K) (center : Fin 3 → K) (son : Nat) : K × (Fin 3 → K) :=
  if len ≥ res then (len / 2, rule.childCenter center son (len / 4)) else (len, center)

/-- `ProcessNode(nodeid, nextid, sonid, ...)`, src/geometric_tree.cpp:22-42 and
src/gravity_tree.cpp:25-46. `rec` is `UpdateInternalNodes`. -/
def processNode (rule : TreeRule K A S) (res : K) (N : Nat)
    (rec : Tree K A → Nat → Int → K → (Fin 3 → K) → Outcome (Tree K A))
    (len : K) (center : Fin 3 → K) (t : Tree K A) (acc : S) (nodeid nextid : Int) (son : Nat) :
    Outcome (Tree K A × S) :=
  if nodeid < N then do
    let acc ← rule.addParticle acc nodeid.toNat
    let next ← Outcome.set t.next nodeid.toNat nextid
    .ok (⟨t.cells, next⟩, acc)
  else do
    let k := nodeid.toNat - N
    let c := childCell rule res len center son
    let t ← rec t k nextid c.1 c.2
    let w ← readWay t.cells k
    .ok (t, rule.addNode acc w.mass w.s)

/-- The pair loop and the final call of `ProcessNode` in `UpdateInternalNodes`,
src/geometric_tree.cpp:63-74, src/gravity_tree.cpp:63-74. `p`, `j` are the son found last and its
slot, the list holds the slots behind it. -/
def pairLoop (rule : TreeRule K A S) (res : K) (N : Nat)
    (rec : Tree K A → Nat → Int → K → (Fin 3 → K) → Outcome (Tree K A))
    (len : K) (center : Fin 3 → K) (sib : Int) : List (Int × Nat) → Tree K A → S → Int → Nat →
    Outcome (Tree K A × S)
  | [], t, acc, p, j => processNode rule res N rec len center t acc p sib j
  | (q, i) :: rest, t, acc, p, j =>
    if q ≥ 0 then do
      let r ← processNode rule res N rec len center t acc p q j
      pairLoop rule res N rec len center sib rest r.1 r.2 q i
    else pairLoop rule res N rec len center sib rest t acc p j

/-- `UpdateInternalNodes(no, sib, len, center)`, src/geometric_tree.cpp:49-77 and
src/gravity_tree.cpp:48-77, on node `N+no`. A node without sons runs past the array `sons`
(`for(i=0;sons[i]<0;i++)`): undefined behaviour. The recursion depth is bounded by fuel. -/
def updateNode (rule : TreeRule K A S) (res : K) (N : Nat) :
    Nat → Tree K A → Nat → Int → K → (Fin 3 → K) → Outcome (Tree K A)
  | 0, _, _, _, _, _ => .diverge
  | fuel + 1, t, no, sib, len, center => do
    let sons ← readSons t.cells no
    match sons.zipIdx.dropWhile (fun s => s.1 < 0) with
    | [] => .ub
    | (pp, jj) :: rest => do
      let cells ← Outcome.set t.cells no (.opened len sib pp)
      let r ← pairLoop rule res N (updateNode rule res N fuel) len center sib rest ⟨cells, t.next⟩
        rule.empty pp jj
      let f := rule.finish r.2 center
      let cells ← Outcome.set r.1.cells no (.way ⟨len, sib, pp, f.1, f.2⟩)
      .ok ⟨cells, r.1.next⟩

/-- `NextnodeFromParticle.resize(N)` in `Reserve`, src/oct_tree.tpp:151; old entries of a re-used tree
stay. -/
def resizeNext (old : List Int) (N : Nat) : List Int :=
  old.take N ++ List.replicate (N - old.length) 0

/-- `Build(snapshot, num_part)`, src/oct_tree.tpp:16-144, with `Reserve` (146-157). `old` is
`NextnodeFromParticle` of the tree object before the call, `fuel` bounds the steps of one insertion.
The reserved capacity is not modelled: exceeding it only reallocates. An empty snapshot reads
particle 0: undefined behaviour. -/
def buildTree (rule : TreeRule K A S) (res resHalf : K) (rand : Nat → Nat) (fuel : Nat)
    (old : List Int) (pts : List (Fin 3 → K)) (num : Nat) : Outcome (Tree K A) := do
  let N := if num = 0 then pts.length else num
  let first ← Outcome.get pts 0
  if N > pts.length then .ub else do
    let e := extent first ((pts.take N).drop 1)
    let len := maxExtension e
    let center : Fin 3 → K := fun d => ((e d).2 + (e d).1) / 2
    let r ← insertAll resHalf rand pts N (len / 2) center fuel (List.range N) 0
      [.sons (List.replicate 8 (-1))]
    updateNode rule res N (r.1.length + 1) ⟨r.1, resizeNext old N⟩ 0 (-1) len center

/-- `shift_center(oldcenter, son, delta, newcenter)`, src/geometric_tree.cpp:10-20, with
`get_bit`, src/mymath.h:121. -/
def shiftCenter (center : Fin 3 → K) (son : Nat) (delta : K) : Fin 3 → K :=
  fun d => if son / 2 ^ d.val % 2 = 1 then center d + delta else center d - delta

/-- `GeoTree_t`: `mass` counts particles, `s` is the geometric centre
(src/geometric_tree.cpp:22-47, 53, 75-76). -/
def geoRule : TreeRule K Int Int where
  empty := 0
  addParticle acc _ := .ok (acc + 1)
  addNode acc mass _ := acc + mass
  childCenter := shiftCenter
  finish acc center := (acc, center)

/-- `GravityTree_t`: accumulates mass and mass-weighted position, `s` is the centre of mass
(src/gravity_tree.cpp:10-46, 52-53, 75-76). The geometric centre is passed on unchanged and not used.
Division by a zero mass gives NaN in C++ and zero here; the theorems assume positive masses. -/
def gravityRule (pts : List (Fin 3 → K)) (mass : List K) : TreeRule K K (K × (Fin 3 → K)) where
  empty := (0, fun _ => 0)
  addParticle acc p := do
    let m ← Outcome.get mass p
    let x ← Outcome.get pts p
    .ok (acc.1 + m, fun d => acc.2 d + x d * m)
  addNode acc m s := (acc.1 + m, fun d => acc.2 d + s d * m)
  childCenter center _ _ := center
  finish acc _ := (acc.1, fun d => acc.2 d / acc.1)

/-- The tree walk shared by `GeoTree_t::Search` (src/geometric_tree.cpp:100-156) and
`GravityTree_t::EvaluatePotential` (src/gravity_tree.cpp:100-161): a particle is handled and followed by
`NextnodeFromParticle`; a node is either opened (`nextnode`) or left (`sibling`) after `node` has
handled it. -/
def walkTree {R : Type} (N : Nat) (particle : Nat → R → Outcome R) (node : Way K A → R → Bool × R)
    (t : Tree K A) : Nat → Int → R → Outcome R
  | 0, id, acc => if id < 0 then .ok acc else .diverge
  | fuel + 1, id, acc =>
    if id < 0 then .ok acc
    else if id < N then do
      let nx ← Outcome.get t.next id.toNat
      let acc ← particle id.toNat acc
      walkTree N particle node t fuel nx acc
    else do
      let w ← readWay t.cells (id.toNat - N)
      let r := node w acc
      walkTree N particle node t fuel (if r.1 then w.nextnode else w.sibling) r.2

/-- Steps that suffice for one walk: every node and every particle is passed at most once.
Part of `treeSearch`, src/geometric_tree.cpp:92-157. -/
def walkFuel (t : Tree K A) : Nat := t.cells.length + t.next.length

/-- `dx`, `dy`, `dz` of both walks: `pos-center`, wrapped by `NEAREST` if periodic
(src/geometric_tree.cpp:110-122, 139-151; src/gravity_tree.cpp:107-115, 123-131). -/
def treeOffset (periodic : Bool) (boxsize : K) (x c : Fin 3 → K) (d : Fin 3) : K :=
  if periodic then nearest boxsize (x d - c d) else x d - c d

/-- Particle test of `GeoTree_t::Search`, src/geometric_tree.cpp:109-128. -/
def treeParticleTest (periodic : Bool) (boxsize radius : K) (c x : Fin 3 → K) : Option K :=
  let dx := treeOffset periodic boxsize x c 0
  if dx > radius ∨ dx < -radius then none else
  let dy := treeOffset periodic boxsize x c 1
  if dy > radius ∨ dy < -radius then none else
  let dz := treeOffset periodic boxsize x c 2
  if dz > radius ∨ dz < -radius then none else
  let r2 := dx * dx + dy * dy + dz * dz
  if r2 < radius * radius then some r2 else none

/-- Node test of `GeoTree_t::Search`, src/geometric_tree.cpp:134-154: is the node opened? -/
def treeNodeTest (periodic : Bool) (boxsize radius : K) (c : Fin 3 → K) (w : Way K A) : Bool :=
  let rmax := w.len / 2 + radius
  let dx := treeOffset periodic boxsize w.s c 0
  if dx > rmax ∨ dx < -rmax then false else
  let dy := treeOffset periodic boxsize w.s c 1
  if dy > rmax ∨ dy < -rmax then false else
  let dz := treeOffset periodic boxsize w.s c 2
  if dz > rmax ∨ dz < -rmax then false else true

/-- `GeoTree_t::Search(searchcenter, radius, collector)`, src/geometric_tree.cpp:92-157. `collect` is
`collector.Collect` acting on the state `R` of the collector. -/
def treeSearch {R : Type} (periodic : Bool) (boxsize : K) (pts : List (Fin 3 → K)) (N : Nat)
    (t : Tree K Int) (c : Fin 3 → K) (radius : K) (collect : R → Nat → K → R) (col : R) : Outcome R :=
  walkTree N
    (fun p acc => do
      let x ← Outcome.get pts p
      match treeParticleTest periodic boxsize radius c x with
      | some r2 => .ok (collect acc p r2)
      | none => .ok acc)
    (fun w acc => (treeNodeTest periodic boxsize radius c w, acc))
    t (walkFuel t) N col

/-- `LocatedParticleCollector_t::Collect`, src/datatypes.h:215-218. -/
def collectLocated (founds : List (Nat × K)) (p : Nat) (d2 : K) : List (Nat × K) := founds ++ [(p, d2)]

/-- `NearestNeighbourCollector_t::Collect`, src/datatypes.h:233-240. -/
def collectNearest (col : Nat × K) (p : Nat) (d2 : K) : Nat × K :=
  if d2 < col.2 then (p, d2) else col

/-- Loop of `GeoTree_t::NearestNeighbour`, src/geometric_tree.cpp:84-89; `IsEmpty` is
src/datatypes.h:241-244. -/
def nearestLoop (periodic : Bool) (boxsize : K) (pts : List (Fin 3 → K)) (N : Nat) (t : Tree K Int)
    (c : Fin 3 → K) : Nat → K → Nat × K → Outcome Nat
  | 0, _, _ => .diverge
  | fuel + 1, rguess, col =>
    if col.2 < 0 then do
      let rguess := rguess * (126 / 100)
      let col ← treeSearch periodic boxsize pts N t c rguess collectNearest col
      nearestLoop periodic boxsize pts N t c fuel rguess col
    else .ok col.1

/-- `GeoTree_t::NearestNeighbour(cen, rguess)`, src/geometric_tree.cpp:79-90; the collector starts as
`Index(0), D2(-1)` (src/datatypes.h:231). `fuel` bounds the loop. -/
def nearestNeighbour (periodic : Bool) (boxsize : K) (pts : List (Fin 3 → K)) (N : Nat) (t : Tree K Int)
    (fuel : Nat) (c : Fin 3 → K) (rguess : K) : Outcome Nat := do
  let col ← treeSearch periodic boxsize pts N t c rguess collectNearest (0, -1)
  nearestLoop periodic boxsize pts N t c fuel rguess col

/-- Loop of `GeoTree_t::SphDensity`, src/geometric_tree.cpp:165-175. `growth k n` is
`pow(1.*k/n,1./3)*1.1`. Returns `founds` and `hguess`. -/
def sphLoop (periodic : Bool) (boxsize : K) (pts : List (Fin 3 → K)) (N : Nat) (t : Tree K Int)
    (growth : Nat → Nat → K) (k : Nat) (c : Fin 3 → K) : Nat → K → List (Nat × K) →
    Outcome (List (Nat × K) × K)
  | 0, _, _ => .diverge
  | fuel + 1, hguess, founds =>
    if founds.length < k then do
      let hguess := if founds.length ≠ 0 then hguess * growth k founds.length else hguess * 2
      let founds ← treeSearch periodic boxsize pts N t c hguess collectLocated []
      sphLoop periodic boxsize pts N t growth k c fuel hguess founds
    else .ok (founds, hguess)

/-- Kernel `wk` of `GeoTree_t::SphDensity`, src/geometric_tree.cpp:187-193. -/
def sphKernel (sqrt : K → K) (h d2 : K) : K :=
  let hinv3 := 1 / (h * h * h)
  let r := sqrt d2
  let u := r / h
  if u < 1 / 2 then
    hinv3 * (2546479089470 / 1000000000000 + 15278874536822 / 1000000000000 * (u - 1) * u * u)
  else hinv3 * (5092958178941 / 1000000000000) * (1 - u) * (1 - u) * (1 - u)

/-- `GeoTree_t::SphDensity(cen, hguess)`, src/geometric_tree.cpp:159-198. `k` is `NumNeighbourSPH`.
`nth` is `nth_element(begin, begin+k-1, end)`. `k = 0` makes the pivot `begin-1`: undefined behaviour;
so does `h = 0` in the model (`1.0/0` and `0/0` are infinities and NaN in C++). Returns the density and
the new `hguess`. -/
def sphDensity (periodic : Bool) (boxsize : K) (pts : List (Fin 3 → K)) (N : Nat) (t : Tree K Int)
    (sqrt : K → K) (growth : Nat → Nat → K) (nth : Nat → List (Nat × K) → List (Nat × K))
    (k : Nat) (fuel : Nat) (c : Fin 3 → K) (hguess : K) : Outcome (K × K) := do
  let founds ← treeSearch periodic boxsize pts N t c hguess collectLocated []
  let r ← sphLoop periodic boxsize pts N t growth k c fuel hguess founds
  if k = 0 then .ub else do
    let founds := nth (k - 1) r.1
    let pivot ← Outcome.get founds (k - 1)
    let h := sqrt pivot.2
    if h = 0 then .ub else
      .ok (((founds.take k).map (fun f => sphKernel sqrt h f.2)).sum, h * (101 / 100))

/-- The potential of `mass` at distance `r` with softening, src/gravity_tree.cpp:144-160
(`h = 2.8*SofteningHalo`). Constants as written in the source. -/
def softPotential (sqrt : K → K) (soft mass r2 : K) : K :=
  let h := 28 / 10 * soft
  let h_inv := 1 / h
  let r := sqrt r2
  if r ≥ h then -(mass / r)
  else
    let u := r * h_inv
    let wp :=
      if u < 1 / 2 then
        -(28 / 10) + u * u * (5333333333333 / 1000000000000 + u * u * (64 / 10 * u - 96 / 10))
      else
        -(32 / 10) + 66666666667 / 1000000000000 / u + u * u * (10666666666667 / 1000000000000 +
          u * (-16 + u * (96 / 10 - 2133333333333 / 1000000000000 * u)))
    mass * h_inv * wp

/-- `r2` of src/gravity_tree.cpp:107-118 and 123-133. -/
def treeDist2 (periodic : Bool) (boxsize : K) (x c : Fin 3 → K) : K :=
  let dx := treeOffset periodic boxsize x c 0
  let dy := treeOffset periodic boxsize x c 1
  let dz := treeOffset periodic boxsize x c 2
  dx * dx + dy * dy + dz * dz

/-- `GravityTree_t::EvaluatePotential(targetPos, targetMass)`, src/gravity_tree.cpp:79-164.
`angle2` is `TreeNodeOpenAngleSquare`, `G` is `PhysicalConst::G`, `scale` is `Cosmology.ScaleFactor`. -/
def evaluatePotential (periodic : Bool) (boxsize : K) (sqrt : K → K) (soft angle2 G scale : K)
    (pts : List (Fin 3 → K)) (mass : List K) (N : Nat) (t : Tree K K) (target : Fin 3 → K)
    (targetMass : K) : Outcome K := do
  let pot ← walkTree N
    (fun p pot => do
      let x ← Outcome.get pts p
      let m ← Outcome.get mass p
      .ok (pot + softPotential sqrt soft m (treeDist2 periodic boxsize x target)))
    (fun w pot =>
      let r2 := treeDist2 periodic boxsize w.s target
      if w.len * w.len > r2 * angle2 then (true, pot)
      else (false, pot + softPotential sqrt soft w.mass r2))
    t (walkFuel t) N (targetMass / soft)
  .ok (pot * G / scale)

/-- `Snapshot_t::RelativeVelocity`, src/snapshot.h:100-111. `hz` is `Cosmology.Hz`. -/
def relativeVelocity (periodic : Bool) (boxsize hz scale : K) (pos vel refPos refVel : Fin 3 → K) :
    Fin 3 → K :=
  fun d => vel d - refVel d + hz * scale * treeOffset periodic boxsize pos refPos d

/-- `GravityTree_t::BindingEnergy`, src/gravity_tree.cpp:166-175. -/
def bindingEnergy (periodic : Bool) (boxsize : K) (sqrt : K → K) (soft angle2 G scale hz : K)
    (pts : List (Fin 3 → K)) (mass : List K) (N : Nat) (t : Tree K K)
    (pos vel refPos refVel : Fin 3 → K) (targetMass : K) : Outcome K := do
  let pot ← evaluatePotential periodic boxsize sqrt soft angle2 G scale pts mass N t pos targetMass
  let dv := relativeVelocity periodic boxsize hz scale pos vel refPos refVel
  .ok ((dv 0 * dv 0 + dv 1 * dv 1 + dv 2 * dv 2) / 2 + pot)

end Field
end HBT.Model
