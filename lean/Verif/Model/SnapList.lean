import Verif.Model.Outcome
import Mathlib.Data.List.Sort
/-!
# Model of toolbox/CreateSnapshotList.py

Prints the list of snapshots that the Apostle reader uses (`snapshotlist.txt`). The directories are given by their names; `float` is a parameter. An exception is `abort`.
-/
namespace HBT.Model
variable {K : Type}

/-- `s.split('_z')`, up to two pieces: what is before the first `_z`, and what is between it and the next.
Part of `redshiftOf`, toolbox/CreateSnapshotList.py:12-13. -/
def cutZ : List Char → List Char × Option (List Char)
  | [] => ([], none)
  | '_' :: 'z' :: l => ([], some l)
  | c :: l => let r := cutZ l; (c :: r.1, r.2)

/-- `redshift`, toolbox/CreateSnapshotList.py:12-13. -/
def redshiftOf (float : List Char → Option K) (name : List Char) : Outcome K :=
  match (cutZ name).2 with
  | none => .abort
  | some l => match float ((cutZ l).1.map (fun c => if c = 'p' then '.' else c)) with
    | none => .abort
    | some z => .ok z

/-- `[redshift(s) for s in snaps]`, toolbox/CreateSnapshotList.py:17, with the names. -/
def withRedshifts (float : List Char → Option K) : List (List Char) → Outcome (List (List Char × K))
  | [] => .ok []
  | s :: l => do
    let z ← redshiftOf float s
    let r ← withRedshifts float l
    .ok ((s, z) :: r)

/-- `np.unique(..., return_index=True)[1]`, sorted, and the entries there (toolbox/CreateSnapshotList.py:17): the index of the first occurrence
of each value. `seen` are the values before. -/
def firstOfEach [DecidableEq K] (seen : List K) : List (List Char × K) → List (List Char × K)
  | [] => []
  | x :: l => if x.2 ∈ seen then firstOfEach seen l else x :: firstOfEach (x.2 :: seen) l

/-- `clear_dup`, toolbox/CreateSnapshotList.py:15-17. -/
def clearDup [DecidableEq K] (float : List Char → Option K) (snaps : List (List Char)) : Outcome (List (List Char)) := do
  let l ← withRedshifts float snaps
  .ok ((firstOfEach [] l).map Prod.fst)

/-- `sorted(glob.glob(prefix+'*'))`, with the directories that can be read and are not empty (`test_dir`, `clear_empty`), toolbox/CreateSnapshotList.py:19-28, 31, 34. -/
def candDirs (sortNames : List (List Char) → List (List Char)) (usable : List Char → Bool) (pre : List Char) (dir : List (List Char)) : List (List Char) :=
  (sortNames (dir.filter (fun s => pre.isPrefixOf s))).filter usable

/-- toolbox/CreateSnapshotList.py:30-43: the three lists `snap`, `snip` and `all`. `sortDown` is `sorted(…, key=redshift, reverse=True)` on names with
their redshifts. The program prints one of the three (lines 45-46). -/
def snapshotLists [DecidableEq K] (float : List Char → Option K) (sortNames : List (List Char) → List (List Char)) (sortDown : List (List Char × K) → List (List Char × K))
    (usable : List Char → Bool) (dir : List (List Char)) : Outcome (List (List Char) × List (List Char) × List (List Char)) := do
  let snaps ← clearDup float (candDirs sortNames usable "snapshot_".toList dir)
  let snips ← clearDup float (candDirs sortNames usable "snipshot_".toList dir)
  let both ← withRedshifts float (snaps ++ snips)
  let all ← clearDup float ((sortDown both).map Prod.fst)
  .ok (snaps, snips, all)

end HBT.Model
