import Verif.Model.Catalogue
import Verif.Model.Config
import Verif.Spec.Reader
/-!
# Model of the catalogue reader toolbox/HBTReader.py and of toolbox/combineSubSnap.py

An exception is `abort`. The files are those of `Model/Catalogue.lean`. Left out: the group `Cosmology` (`OmegaM0`,
`ScaleFactor`: see `Model/ReaderScale.lean`), messages, and the column selection by numpy slices, which acts on the rows modelled here.
Snapshot and file numbers stand for file names (`%03d`, `%d`), as in `Model/Catalogue.lean`.
-/
namespace HBT.Model
open HBT.Spec
variable {K D : Type}

/-- What is in the catalogue directory: combined catalogues `SubSnap_xxx.hdf5`, the directories of the snapshots, and what
`glob` gives for `SubSnap_*.hdf5` and for `*/SubSnap_*.hdf5` (HBTReader.py:76-80). -/
structure SubRoot (K D : Type) where
  single : Int → Option (SubFile K D)
  multi : Int → Disk K D
  globSingle : List Int
  globMulti : List (Int × Nat)

/-- The state of an `HBTReader`: `MaxSnap` and `nfiles`. Part of `openFile`, HBTReader.py:112-119. -/
structure Reader where
  maxSnap : Int
  nfiles : Nat
  deriving DecidableEq

/-- The snapshot number of the last of the file names sorted by snapshot number, HBTReader.py:76-82. -/
def lastSnap : List Int → Option Int
  | [] => none
  | i :: rest => some (rest.foldl max i)

/-- `GetFileName`, HBTReader.py:112-119, and opening the file; a file that is not there is an error. -/
def openFile (root : SubRoot K D) (rd : Reader) (isnap : Int) (ifile : Nat) : Outcome (SubFile K D) :=
  let i := if isnap < 0 then rd.maxSnap + 1 + isnap else isnap
  match (if rd.nfiles ≠ 0 then (root.multi i).sub ifile else root.single i) with
  | some f => .ok f
  | none => .abort

/-- The search for the last file, HBTReader.py:75-94. The snapshot number in the parameter file is replaced by the one found. -/
def findLast (root : SubRoot K D) : Outcome Reader :=
  match lastSnap root.globSingle with
  | some m => .ok ⟨m, 0⟩
  | none => match lastSnap (root.globMulti.map Prod.fst) with
    | some m => .ok ⟨m, (root.globMulti.filter (fun x => x.1 = m)).length⟩
    | none => .abort

/-- `HBTReader.__init__`, HBTReader.py:75-107: the last file is opened, too. -/
def openReader (root : SubRoot K D) : Outcome Reader := do
  let rd ← findLast root
  let _ ← openFile root rd (-1) 0
  .ok rd

/-- `Snapshots`, HBTReader.py:109-110. -/
def readerSnapshots (minSnap : Int) (rd : Reader) : List Int :=
  (List.range (rd.maxSnap + 1 - minSnap).toNat).map (fun k : Nat => minSnap + k)

/-- The loop of `LoadSubhalos` when all rows are asked for, HBTReader.py:165-181: `n` files from `i` on. -/
def loadRows (root : SubRoot K D) (rd : Reader) (isnap : Int) : Nat → Nat → Outcome (List (Sub K D))
  | 0, _ => .ok []
  | n + 1, i => do
    let f ← openFile root rd isnap i
    let rest ← loadRows root rd isnap n (i + 1)
    .ok (f.table ++ rest)

/-- `LoadSubhalos(isnap)`, HBTReader.py:131-189. -/
def loadSubhalos (root : SubRoot K D) (rd : Reader) (isnap : Int) : Outcome (List (Sub K D)) :=
  loadRows root rd isnap (max rd.nfiles 1) 0

/-- `dataset[j]`: a negative number counts from the end. Part of `loadRow`, HBTReader.py:165-179. -/
def pyIndex {α : Type} (l : List α) (j : Int) : Outcome α :=
  match l[(if j < 0 then j + l.length else j).toNat]? with
  | some a => if j < -(l.length : Int) then .abort else .ok a
  | none => .abort

/-- The loop of `LoadSubhalos` when one row is asked for, HBTReader.py:165-179. -/
def loadRow (root : SubRoot K D) (rd : Reader) (isnap index : Int) : Nat → Nat → Int → Outcome (List (Sub K D))
  | 0, _, _ => .ok []
  | n + 1, i, offset => do
    let f ← openFile root rd isnap i
    if f.table.length = 0 then loadRow root rd isnap index n (i + 1) offset
    else if offset + f.table.length > index then do
      let s ← pyIndex f.table (index - offset)
      .ok [s]
    else loadRow root rd isnap index n (i + 1) (offset + f.table.length)

/-- `LoadSubhalos(isnap, index)`, HBTReader.py:131-189: an array of one row, or of none. -/
def loadSubhalo (root : SubRoot K D) (rd : Reader) (isnap index : Int) : Outcome (List (Sub K D)) :=
  loadRow root rd isnap index (max rd.nfiles 1) 0 0

/-- `GetSub`, HBTReader.py:244-253. -/
def getSub (root : SubRoot K D) (rd : Reader) (trackId isnap : Int) : Outcome (List (Sub K D)) :=
  if rd.nfiles ≠ 0 then do
    let rows ← loadSubhalos root rd isnap
    match rows.findIdx? (fun s => decide (s.trackId = trackId)) with
    | some k => loadSubhalo root rd isnap k
    | none => .abort
  else loadSubhalo root rd isnap trackId

/-- `GetTrackSnapshot`, HBTReader.py:255-260, as an element of the array `track` of `GetTrack`, HBTReader.py:271-273, which cannot
be built from arrays of different sizes. -/
def getTrackRow (root : SubRoot K D) (rd : Reader) (trackId isnap : Int) : Outcome (Int × Sub K D) := do
  let l ← getSub root rd trackId isnap
  match l with
  | [s] => .ok (isnap, s)
  | _ => .abort

/-- The rows of a list of snapshots. Part of `getTrack`, HBTReader.py:262-276. -/
def getTrackRows (root : SubRoot K D) (rd : Reader) (trackId : Int) : List Int → Outcome (List (Int × Sub K D))
  | [] => .ok []
  | i :: rest => do
    let a ← getTrackRow root rd trackId i
    let l ← getTrackRows root rd trackId rest
    .ok (a :: l)

/-- `GetTrack`, HBTReader.py:262-276: snapshot numbers and rows. -/
def getTrack (root : SubRoot K D) (rd : Reader) (trackId : Int) : Outcome (List (Int × Sub K D)) := do
  let l ← getSub root rd trackId (-1)
  match l with
  | [] => .abort
  | s :: _ => getTrackRows root rd trackId (readerSnapshots s.snapBirth rd)

/-- The particle lists of one file: `SubhaloParticles` or `SrchaloParticles`, HBTReader.py:212-214. `SrcSnap` files only exist in
the directories of the snapshots. -/
def openLists (root : SubRoot K D) (rd : Reader) (src : Bool) (isnap : Int) (ifile : Nat) : Outcome (List (List Int)) :=
  if src then
    let i := if isnap < 0 then rd.maxSnap + 1 + isnap else isnap
    match (if rd.nfiles ≠ 0 then (root.multi i).src ifile else none) with
    | some l => .ok l
    | none => .abort
  else do
    let f ← openFile root rd isnap ifile
    .ok f.boundIds

/-- The loop of `LoadParticles` over all subhaloes, HBTReader.py:211-214, and that of `LoadNestedSubhalos`, HBTReader.py:125-129. -/
def loadLists (get : Nat → Outcome (List (List Int))) : Nat → Nat → Outcome (List (List Int))
  | 0, _ => .ok []
  | n + 1, i => do
    let l ← get i
    let rest ← loadLists get n (i + 1)
    .ok (l ++ rest)

/-- The loop of `LoadParticles` for one subhalo, HBTReader.py:211-222; `hstack` of nothing is an error. -/
def loadList (get : Nat → Outcome (List (List Int))) (index : Int) : Nat → Nat → Int → Outcome (List Int)
  | 0, _, _ => .abort
  | n + 1, i, offset => do
    let l ← get i
    if offset + l.length > index then pyIndex l (index - offset)
    else loadList get index n (i + 1) (offset + l.length)

/-- `LoadParticles(isnap, filetype=…)`, HBTReader.py:198-223. -/
def shownParticles (root : SubRoot K D) (rd : Reader) (src : Bool) (isnap : Int) : Outcome (List (List Int)) :=
  loadLists (openLists root rd src isnap) (max rd.nfiles 1) 0

/-- `LoadParticles(isnap, subindex, filetype)`, HBTReader.py:198-223. -/
def shownParticlesOf (root : SubRoot K D) (rd : Reader) (src : Bool) (isnap index : Int) : Outcome (List Int) :=
  loadList (openLists root rd src isnap) index (max rd.nfiles 1) 0 0

/-- The dataset `NestedSubhalos` of one file. Part of `loadNested`, HBTReader.py:125-129. -/
def openNested (root : SubRoot K D) (rd : Reader) (isnap : Int) (ifile : Nat) : Outcome (List (List Int)) := do
  let f ← openFile root rd isnap ifile
  .ok f.nested

/-- `LoadNestedSubhalos`, HBTReader.py:125-129. -/
def loadNested (root : SubRoot K D) (rd : Reader) (isnap : Int) : Outcome (List (List Int)) :=
  loadLists (openNested root rd isnap) (max rd.nfiles 1) 0

/-- The names of the datasets `WriteFile` puts at the top of a `SubSnap` file, src/io/subhalo_io.cpp:304-392 (`BindingEnergies` and
`ParticleProperties` are optional). -/
def subSnapDatasets : List String :=
  ["NumberOfFiles", "SnapshotId", "Cosmology", "NumberOfNewSubhalos", "NumberOfFakeHalos", "NumberOfSubhalosInAllFiles",
   "ParticleProperties", "NestedSubhalos", "BindingEnergies", "SubhaloParticles", "Subhalos"]

/-- `GetNumberOfSubhalos`, HBTReader.py:191-196. A dataset that is not in the file is an error. -/
def getNumberOfSubhalos (root : SubRoot K D) (rd : Reader) (isnap : Int) : Outcome Nat := do
  let f ← openFile root rd isnap 0
  if rd.nfiles ≠ 0 then
    if "TotalNumberOfSubhalosInAllFiles" ∈ subSnapDatasets then .ok f.numAll else .abort
  else .ok f.table.length

/-! ## `GetExclusiveParticles` -/

/-- The loop of `GetExclusiveParticles`, HBTReader.py:296-303, over the subhaloes sorted by size. `repo` are the particles that are
taken; `toList` is `list(set(…))`, which gives the elements in some order. -/
def exclusiveLoop (toList : List Int → List Int) : List Int → List (Nat × List Int) → List (Nat × List Int)
  | _, [] => []
  | repo, (i, p) :: rest =>
    if p.length > 1 then
      (i, toList (p.filter (fun x => !repo.contains x))) :: exclusiveLoop toList (repo ++ p.filter (fun x => !repo.contains x)) rest
    else (i, p) :: exclusiveLoop toList repo rest

/-- `GetExclusiveParticles`, HBTReader.py:290-309, on the lists of `LoadParticles`. `sortMass` is the sort by `comp_mass`, `sortId`
the one by `comp_id`. -/
def exclusiveParticles (sortMass sortId : List (Nat × List Int) → List (Nat × List Int)) (toList : List Int → List Int)
    (parts : List (List Int)) : List (List Int) :=
  (sortId (exclusiveLoop toList [] (sortMass (parts.zipIdx.map Prod.swap)))).map Prod.snd

/-! ## `ConfigReader` -/

/-- `str.split(c, 1)[0]`. Part of `configLine`, HBTReader.py:52-58. -/
def beforeChar (c : Char) (s : List Char) : List Char := s.takeWhile (fun x => !(x == c))

/-- `str.split()` (white space in ASCII files). Part of `configLine`, HBTReader.py:52-58. -/
def pySplit (s : List Char) : List (List Char) := words s

/-- One line of `ConfigReader.__init__`, HBTReader.py:52-58: the name and its values, if the line has any. -/
def configLine (line : List Char) : Option (List Char × List (List Char)) :=
  match pySplit (beforeChar '[' (beforeChar '#' (line.dropWhile isSpace))) with
  | n :: v :: vs => some (n, v :: vs)
  | _ => none

/-- `ConfigReader.__init__` and `__getitem__`, HBTReader.py:48-61: the value of the last line with the name; one that does not exist
is an error. -/
def configGet (lines : List (List Char)) (name : List Char) : Outcome (List (List Char)) :=
  match (lines.reverse.filterMap configLine).find? (fun o => o.1 == name) with
  | some o => .ok o.2
  | none => .abort

/-! ## `combineSubSnap` -/

/-- Rows in the given order: `data[order]`. Part of `combineSubSnap`, toolbox/combineSubSnap.py:10-43. -/
def pickRows {α : Type} (l : List α) : List Nat → Outcome (List α)
  | [] => .ok []
  | k :: ks => do
    let a ← Outcome.get l k
    let rest ← pickRows l ks
    .ok (a :: rest)

/-- The files of a snapshot, combineSubSnap.py:25-32. -/
def filesOf (disk : Disk K D) : Nat → Nat → Outcome (List (SubFile K D))
  | 0, _ => .ok []
  | n + 1, i => do
    let f ← match disk.sub i with | some f => Outcome.ok f | none => Outcome.abort
    let rest ← filesOf disk n (i + 1)
    .ok (f :: rest)

/-- `combineSubSnap`, toolbox/combineSubSnap.py:10-43, with `write_vlen_data`, 45-54, which fails if there are no subhaloes
(`data[0]`). `argsort` is numpy's sort of the TrackIds, giving positions. The two numbers that are not written are 0 here. -/
def combineSubSnap (argsort : List Int → List Nat) (disk : Disk K D) : Outcome (SubFile K D) := do
  let f0 ← match disk.sub 0 with | some f => Outcome.ok f | none => Outcome.abort
  let fs ← filesOf disk f0.numberOfFiles 0
  let subs := fs.flatMap SubFile.table
  let order := argsort (subs.map Sub.trackId)
  let table ← pickRows subs order
  let most ← pickRows (fs.flatMap SubFile.mostBound) order
  let bound ← pickRows (fs.flatMap SubFile.boundIds) order
  let nested ← pickRows (fs.flatMap SubFile.nested) order
  if subs.length = 0 then .abort else
    .ok { numberOfFiles := 0, snapshotId := f0.snapshotId, numAll := 0, nested := nested, boundIds := bound, table := table, mostBound := most }

end HBT.Model
