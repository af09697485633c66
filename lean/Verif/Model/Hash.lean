import Verif.Model.Outcome
import Mathlib.Data.List.Basic
/-!
# Model of the index tables, src/hash.h, src/hash.tpp, src/hash_remote.tpp

A `KeyList_t` is the list of its `(GetKey(i), GetIndex(i))` pairs.
-/
namespace HBT.Model

/-- What the C++ standard guarantees for `sort(Map.begin(), Map.end(), CompPair)`
(src/hash.tpp:30): some rearrangement in ascending key order; equal keys in any order. -/
structure SortSpec (sort : List (Int × Int) → List (Int × Int)) : Prop where
  perm : ∀ l, (sort l).Perm l
  sorted : ∀ l, (sort l).Pairwise (fun a b => a.1 ≤ b.1)

/-- What the C standard guarantees for `bsearch` on an array sorted by key
(src/hash.tpp:53): some matching element if there is one, otherwise `NULL`. -/
structure BsearchSpec (bsearch : Int → List (Int × Int) → Option (Int × Int)) : Prop where
  found : ∀ key l p, l.Pairwise (fun a b => a.1 ≤ b.1) → bsearch key l = some p →
    p ∈ l ∧ p.1 = key
  missing : ∀ key l, l.Pairwise (fun a b => a.1 ≤ b.1) → bsearch key l = none →
    ∀ p ∈ l, p.1 ≠ key

/-- `MappedIndexTable_t`, src/hash.h:86-115 (`NumQueryCrit` is written but never used, left out). -/
structure MappedTable where
  map : List (Int × Int)
  nullIndex : Int
  deriving DecidableEq, Repr

/-- `MappedIndexTable_t::Fill`, src/hash.tpp:19-32. The loop filling `Map` is `pairs`. Left out:
`NumQueryCrit=n/log2(n)` (line 31), whose value is unused. -/
def MappedTable.fill (sort : List (Int × Int) → List (Int × Int)) (pairs : List (Int × Int))
    (null : Int) : MappedTable := ⟨sort pairs, null⟩

/-- `MappedIndexTable_t::Clear`, src/hash.tpp:33-38. -/
def MappedTable.clear (t : MappedTable) : MappedTable := { t with map := [] }

/-- `MappedIndexTable_t::GetIndex`, src/hash.tpp:49-56. -/
def MappedTable.getIndex (bsearch : Int → List (Int × Int) → Option (Int × Int))
    (t : MappedTable) (key : Int) : Int :=
  if key < 0 then t.nullIndex
  else match bsearch key t.map with
    | none => t.nullIndex
    | some p => p.2

/-- `FlatIndexTable_t`, src/hash.h:61-84. `index` is the allocated block; the C++ pointer is shifted
so that `Index[key]` is entry `key-KeyMin` of the block. -/
structure FlatTable where
  nullIndex : Int
  index : List Int
  keySpan : Int
  keyMin : Int
  keyMax : Int
  deriving DecidableEq, Repr

/-- `FlatIndexTable_t::Clear`, src/hash.tpp:96-104. -/
def FlatTable.clear (t : FlatTable) : FlatTable :=
  if t.keySpan ≠ 0 then { t with keySpan := 0, index := [] } else t

/-- The min/max reduction loop, src/hash.tpp:66-77. -/
def keyMinMax (k : Int) (pairs : List (Int × Int)) : Int × Int :=
  pairs.foldl (fun mm p => (if p.1 < mm.1 then p.1 else mm.1, if p.1 > mm.2 then p.1 else mm.2))
    (k, k)

/-- `Index[key]=v` for the shifted pointer. Part of `fillFlatLoop`, src/hash.tpp:91-93. -/
def storeShifted (block : List Int) (keyMin key v : Int) : Outcome (List Int) :=
  if key < keyMin then .ub else Outcome.set block (key - keyMin).toNat v

/-- The fill loop `Index[Keys.GetKey(i)]=Keys.GetIndex(i)`, src/hash.tpp:91-93. It is an
`omp for`; `order` is the order in which the iterations take effect. -/
def fillFlatLoop (keyMin : Int) : List (Int × Int) → List Int → Outcome (List Int)
  | [], block => .ok block
  | p :: order, block => do
    let block ← storeShifted block keyMin p.1 p.2
    fillFlatLoop keyMin order block

/-- `FlatIndexTable_t::Fill`, src/hash.tpp:58-95. `order` is the schedule of the fill loop, a
rearrangement of `pairs`. -/
def FlatTable.fill (t : FlatTable) (pairs order : List (Int × Int)) (null : Int) :
    Outcome FlatTable :=
  let t := { t with nullIndex := null }
  let t := t.clear
  match pairs with
  | [] => .ok t
  | p :: rest => do
    let (keymin, keymax) := keyMinMax p.1 rest
    let span := keymax - keymin + 1
    let block := List.replicate span.toNat null
    let block ← fillFlatLoop keymin order block
    .ok ⟨null, block, span, keymin, keymax⟩

/-- `FlatIndexTable_t::GetIndex`, src/hash.tpp:105-110. -/
def FlatTable.getIndex (t : FlatTable) (key : Int) : Outcome Int :=
  if t.keySpan = 0 ∨ key < t.keyMin ∨ key > t.keyMax then .ok t.nullIndex
  else Outcome.getI t.index (key - t.keyMin)

/-- `lower_bound` over a range of the map by key, as used in src/hash_remote.tpp:78: number of
leading entries with a smaller key. -/
def lowerBound (m : List (Int × Int)) (key : Int) : Nat :=
  (m.takeWhile (fun p => decide (p.1 < key))).length

/-- `MappedIndexTable_t::GetIndicesRecursive`, src/hash_remote.tpp:58-92. The C++ function rewrites
the slice `[imin,imax)` of the particle array in place using the map range `[MapBegin,MapEnd)`.
Here the slice is the list `ids`, the map range is the list `m`, and the result is the rewritten
slice; `imid-imin = (imax-imin)/2` in both branches of lines 73-76. -/
def getIndicesRecursive (null : Int) (ids : List Int) (m : List (Int × Int)) : List Int :=
  if m.isEmpty then ids.map (fun _ => null)
  else if h : ids.length = 0 then []
  else
    let imid := ids.length / 2
    have hmid : imid < ids.length := by omega
    let key := ids[imid]
    let mid := lowerBound m key
    match m[mid]? with
    | none =>
      getIndicesRecursive null (ids.take imid) (m.take mid) ++ [null] ++
        getIndicesRecursive null (ids.drop (imid+1)) (m.drop mid)
    | some p =>
      if p.1 > key then
        getIndicesRecursive null (ids.take imid) (m.take mid) ++ [null] ++
          getIndicesRecursive null (ids.drop (imid+1)) (m.drop mid)
      else
        getIndicesRecursive null (ids.take imid) (m.take (mid+1)) ++ [p.2] ++
          getIndicesRecursive null (ids.drop (imid+1)) (m.drop mid)
termination_by ids.length
decreasing_by all_goals (simp; omega)

/-- `MappedIndexTable_t::GetIndices`, src/hash_remote.tpp:10-17 (the batch search is always used). -/
def MappedTable.getIndices (t : MappedTable) (ids : List Int) : List Int :=
  getIndicesRecursive t.nullIndex ids t.map

/-- `FlatIndexTable_t::GetIndices`, src/hash_remote.tpp:94-100. -/
def FlatTable.getIndices (t : FlatTable) : List Int → Outcome (List Int)
  | [] => .ok []
  | k :: ks => do
    let r ← t.getIndex k
    let rs ← t.getIndices ks
    .ok (r :: rs)

end HBT.Model
