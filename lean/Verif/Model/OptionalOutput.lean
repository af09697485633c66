import Verif.Model.Unbind
import Verif.Model.Merge
import Verif.Model.Reader
/-!
# Model of the optional datasets of the catalogue: `ParticleProperties` and `BindingEnergies`

Left out of `Model/Catalogue.lean` and `Model/Unbind.lean`; here they are beside these models. `ParticleProperties` is written if the parameter
`SaveSubParticleProperties` is set, `BindingEnergies` in a build with `SAVE_BINDING_ENERGY`.
-/
namespace HBT.Model
open HBT HBT.Spec
variable {K D E : Type}

/-! ## `Energies` of a subhalo -/

/-- The `while(true)` loop of `Unbind`, src/subhalo_unbind.cpp:310-422, as `unbindLoop`, but `Elist` is returned at both exits, as it is then; with `Nbound` at the exit
by convergence. -/
def unbindElist [LT E] [DecidableLT E] [Zero E] (cfg : UnbindConfig) (env : UnbindEnv K D E) :
    Nat → Nat → List (PE E) → Nat → Outcome (List (PE E) × Option Nat)
  | 0, _, _, _ => .diverge
  | fuel + 1, k, l, nlast => do
    let r ← partitionEnergy (setEnergies (env.energy k) nlast l) nlast
    if r.2 < cfg.minNum then .ok (r.1, none)
    else
      let l := r.1.take r.2 ++ env.sortE ((r.1.take nlast).drop r.2) ++ r.1.drop nlast
      if cfg.fl (cfg.fl nlast * cfg.prec) ≤ cfg.fl r.2 then
        let l := env.sortE (l.take r.2) ++ l.drop r.2
        if 0 < cfg.maxSample ∧ cfg.refine ∧ cfg.maxSample < r.2 then do
          let l ← refineOrder env cfg.maxSample l
          .ok (l, some r.2)
        else .ok (l, some r.2)
      else unbindElist cfg env fuel (k + 1) l r.2

/-- `Subhalo_t::Unbind`, src/subhalo_unbind.cpp:263-431, as `unbind`, with `Energies`, 279-281, 288-291 and 425-430: the energies of the first `Nbound` entries of
`Elist`. -/
def unbindStored [LT E] [DecidableLT E] [Zero E] [MassSum K] (cfg : UnbindConfig) (env : UnbindEnv K D E)
    (fuel : Nat) (snap : Int) (s : Sub K D) : Outcome (Sub K D × List E) :=
  let s := if s.particles.length < cfg.minNum then die snap s else s
  match s.particles with
  | [] => .ok (setBound env.mass 0 s, [])
  | [_] => .ok (setBound env.mass 1 s, [0])
  | p0 :: _ :: _ => do
    let n := s.particles.length
    let ps := if 0 < cfg.maxSample ∧ cfg.maxSample < n then env.shuffle s.particles else s.particles
    let r ← unbindElist cfg env fuel 0 ((List.range n).map (fun i => ⟨i, env.junk i⟩)) n
    match r.2 with
    | none => do
      let ps ← restoreFirst p0.id ps
      let en ← slice (r.1.map PE.e) 0 1
      .ok (setBound env.mass 1 (die snap (s.withParticles ps)), en)
    | some nb => do
      let ps ← pickAll ps (r.1.map PE.pid)
      let en ← slice (r.1.map PE.e) 0 nb
      .ok ({ s with
        nbound := nb
        mbound := boundMass env.mass env.way nb ps
        particles := ps
        snapDeath := nullSnap
        snapSink := if s.sinkTrackId ≠ nullTrack then nullSnap else s.snapSink
        sinkTrackId := nullTrack }, en)

/-! ## Writing -/

/-- The optional datasets of a `SubSnap` file. Part of `writeOptional`, src/io/subhalo_io.cpp:319-356 and 369-378. -/
structure OptFile (D E : Type) where
  properties : Option (List (List D))
  energies : Option (List (List E))

/-- The optional datasets of the files of a snapshot, by file number, where there is a file. Part of `writeOptional`, src/io/subhalo_io.cpp:297-396. -/
abbrev OptDisk (D E : Type) := Nat → Option (OptFile D E)

/-- `ParticleProperties`, src/io/subhalo_io.cpp:342-348: `Nbound` particles from the start of the list of each subhalo, all members but the id. -/
def propertyLists : List (Sub K D × List E) → Outcome (List (List D))
  | [] => .ok []
  | s :: rest => do
    let l ← slice s.1.particles 0 s.1.nbound
    let ls ← propertyLists rest
    .ok (l.map Particle.data :: ls)

/-- `BindingEnergies`, src/io/subhalo_io.cpp:371-376. -/
def energyLists : List (Sub K D × List E) → Outcome (List (List E))
  | [] => .ok []
  | s :: rest => do
    let l ← slice s.2 0 s.1.nbound
    let ls ← energyLists rest
    .ok (l :: ls)

/-- The part of `WriteFile` about the optional datasets, src/io/subhalo_io.cpp:319-356 (if `props`) and 369-378 (if `ens`). -/
def writeOptional (props ens : Bool) (subs : List (Sub K D × List E)) : Outcome (OptFile D E) := do
  let p ← if props then do let l ← propertyLists subs; Outcome.ok (some l) else Outcome.ok none
  let e ← if ens then do let l ← energyLists subs; Outcome.ok (some l) else Outcome.ok none
  .ok ⟨p, e⟩

/-- The part of `perform` about the optional datasets, src/io/subhalo_io.cpp:275-296. -/
def performOptional {P : Nat} (props ens : Bool) (st : Fin P → List (Sub K D × List E)) (disk : OptDisk D E) : WriteOp P → Outcome (OptDisk D E)
  | .sub r => do
    let f ← writeOptional props ens (st r)
    .ok (fun i => if i = r.val then some f else disk i)
  | .src _ => .ok disk

/-- The part of `saveOps` about the optional datasets, src/io/subhalo_io.cpp:275-296. -/
def saveOptional {P : Nat} (props ens : Bool) (st : Fin P → List (Sub K D × List E)) (ops : List (WriteOp P)) (disk : OptDisk D E) : Outcome (OptDisk D E) :=
  ops.foldlM (performOptional props ens st) disk

/-! ## Reading -/

/-- `Energies` read by `ReadFile`, src/io/subhalo_io.cpp:251-267, of a file with `nsub` subhaloes. -/
def readStoredEnergies (disk : OptDisk D E) (iFile nsub : Nat) : Outcome (List (List E)) :=
  match disk iFile with
  | none => .ub
  | some f => match f.energies with
    | none => .ub
    | some l => do
      Outcome.assert (decide (l.length = nsub))
      .ok l

/-- The loop of `GetParticleProperties`, HBTReader.py:231-242: `n` files from `i` on. `opts` are the optional datasets of the snapshot. The layout of older versions (237) is left out. -/
def propertiesFrom (root : SubRoot K D) (opts : OptDisk D E) (rd : Reader) (isnap index : Int) : Nat → Nat → Int → Outcome (List D)
  | 0, _, _ => .abort
  | n + 1, i, offset => do
    let f ← openFile root rd isnap i
    if offset + f.table.length > index then
      match opts i with
      | none => .abort
      | some o => match o.properties with
        | none => .abort
        | some l => pyIndex l (index - offset)
    else propertiesFrom root opts rd isnap index n (i + 1) (offset + f.table.length)

/-- `GetParticleProperties`, HBTReader.py:225-243, for catalogues that are not combined. `opts i` are the optional datasets of snapshot `i`. -/
def getParticleProperties (root : SubRoot K D) (opts : Int → OptDisk D E) (rd : Reader) (index isnap : Int) : Outcome (List D) :=
  propertiesFrom root (opts (if isnap < 0 then rd.maxSnap + 1 + isnap else isnap)) rd isnap index (max rd.nfiles 1) 0 0

end HBT.Model
