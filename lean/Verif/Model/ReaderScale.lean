import Verif.Model.Cosmology
import Verif.Model.Reader
/-!
# Model of what the catalogue reader takes from the group `Cosmology`, toolbox/HBTReader.py:98-107, 274-291

The rest of the reader is `Model/Reader.lean`. `ParticleMass` is only in combined catalogues; it is left out. The older layout, with `ScaleFactor` outside of the group
(HBTReader.py:282), is not written by the code modelled here, and is left out: without the group there is an exception.
-/
namespace HBT.Model
open HBT HBT.Spec
variable {K D Q : Type}

/-- The groups in the catalogue directory: of combined catalogues, and of the files of each snapshot. Part of `openGroup`, HBTReader.py:112-124. -/
structure CosmoRoot (Q : Type) where
  single : Int → Option (CosmoGroup Q)
  multi : Int → CosmoDisk Q

/-- `GetFileName` and opening the file, HBTReader.py:112-124, as `openFile`, then the group of the file. -/
def openGroup (root : CosmoRoot Q) (rd : Reader) (isnap : Int) (ifile : Nat) : Outcome (CosmoGroup Q) :=
  let i := if isnap < 0 then rd.maxSnap + 1 + isnap else isnap
  match (if rd.nfiles ≠ 0 then root.multi i ifile else root.single i) with
  | some g => .ok g
  | none => .abort

/-- `OmegaM0` and `OmegaLambda0` of the reader, HBTReader.py:105-107. -/
def readerOmegas (root : CosmoRoot Q) (rd : Reader) : Outcome (Q × Q) := do
  let g ← openGroup root rd (-1) 0
  .ok (g.omegaM0, g.omegaLambda0)

/-- `GetScaleFactor`, HBTReader.py:278-282. -/
def getScaleFactor (root : CosmoRoot Q) (rd : Reader) (isnap : Int) : Outcome Q := do
  let g ← openGroup root rd isnap 0
  .ok g.scaleFactor

/-- The scale factors of a list of snapshots, HBTReader.py:274 and 286-287. -/
def scaleFactors (root : CosmoRoot Q) (rd : Reader) : List Int → Outcome (List Q)
  | [] => .ok []
  | i :: rest => do
    let a ← getScaleFactor root rd i
    let l ← scaleFactors root rd rest
    .ok (a :: l)

/-- `GetScaleFactorDict`, HBTReader.py:284-287. -/
def scaleFactorDict (minSnap : Int) (root : CosmoRoot Q) (rd : Reader) : Outcome (List (Int × Q)) := do
  let l ← scaleFactors root rd (readerSnapshots minSnap rd)
  .ok ((readerSnapshots minSnap rd).zip l)

/-- `GetTrack`, HBTReader.py:262-276, with the column `ScaleFactor`: the columns are put side by side. -/
def getTrackScaled (root : SubRoot K D) (groups : CosmoRoot Q) (rd : Reader) (trackId : Int) : Outcome (List ((Int × Sub K D) × Q)) := do
  let rows ← getTrack root rd trackId
  let scales ← scaleFactors groups rd (rows.map Prod.fst)
  .ok (rows.zip scales)

/-- The group of the combined catalogue, toolbox/combineSubSnap.py:17-19: that of the first file. -/
def combineGroup (disk : CosmoDisk Q) : Outcome (CosmoGroup Q) :=
  match disk 0 with
  | some g => .ok g
  | none => .abort

end HBT.Model
