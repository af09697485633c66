import Verif.Model.Outcome
import Verif.Model.Mpi
import Verif.Spec.Types
import Mathlib.Order.Basic
/-!
# Model of `MemberShipTable_t`

src/subhalo.h:148-185 and src/subhalo_tracking.cpp:28-162. `AllMembers` is one array of subhalo
indices; each group (host haloes `-1, 0, 1, ...`) is a `VectorView_t` on a part of it
(src/datatypes.h:116-177). `SubGroups` points to the second entry of `Mem_SubGroups`, so group `h` is
entry `h+1` of `Mem_SubGroups`; any other index is undefined behaviour.
-/
namespace HBT.Model
variable {K D : Type}

/-- `VectorView_t`: offset of `Data` inside `AllMembers` and size `N`. A null `Data` (before binding)
is never followed; the model gives it offset 0. src/datatypes.h:116-175. -/
structure View where
  off : Nat
  n : Nat
  deriving DecidableEq, Repr

/-- `MemberShipTable_t`: `AllMembers`, `Mem_SubGroups` and `NBirth`. src/subhalo.h:148-185. -/
structure MemberTable where
  all : List Nat
  groups : List View
  nBirth : Nat
  deriving DecidableEq, Repr

/-- The place of group `h` in `Mem_SubGroups`. Part of `incrementBind`, src/datatypes.h:143-146. -/
def groupIndex (h : Int) : Outcome Nat := if h + 1 < 0 then .ub else .ok (h + 1).toNat

/-- `SubGroups[h].IncrementBind()`, src/datatypes.h:143-146. -/
def incrementBind (groups : List View) (h : Int) : Outcome (List View) := do
  let g ← groupIndex h
  let v ← Outcome.get groups g
  Outcome.set groups g { v with n := v.n + 1 }

/-- Is the subhalo counted? src/subhalo_tracking.cpp:61-71. -/
def counted (includeOrphans : Bool) (s : Sub K D) : Bool := includeOrphans || decide (s.nbound > 1)

/-- `CountMembers`, src/subhalo_tracking.cpp:59-72. -/
def countMembers (includeOrphans : Bool) : List (Sub K D) → List View → Outcome (List View)
  | [], groups => .ok groups
  | s :: subs, groups =>
    if counted includeOrphans s then do
      let groups ← incrementBind groups s.hostHaloId
      countMembers includeOrphans subs groups
    else countMembers includeOrphans subs groups

/-- `BindMemberLists`, src/subhalo_tracking.cpp:49-58. (Forming `&AllMembers[offset]` with
`offset==AllMembers.size()` for trailing empty groups is not reported as undefined by the model.) -/
def bindMemberLists : List View → Nat → List View
  | [], _ => []
  | v :: vs, offset => ⟨offset, 0⟩ :: bindMemberLists vs (offset + v.n)

/-- `SubGroups[h].PushBack(x)`, src/datatypes.h:159-164. -/
def pushBack (groups : List View) (all : List Nat) (h : Int) (x : Nat) :
    Outcome (List View × List Nat) := do
  let g ← groupIndex h
  let v ← Outcome.get groups g
  let all ← Outcome.set all (v.off + v.n) x
  let groups ← Outcome.set groups g { v with n := v.n + 1 }
  .ok (groups, all)

/-- `FillMemberLists`, src/subhalo_tracking.cpp:73-86, from subhalo `subid` on. -/
def fillMemberLists (includeOrphans : Bool) :
    List (Sub K D) → Nat → List View × List Nat → Outcome (List View × List Nat)
  | [], _, st => .ok st
  | s :: subs, subid, st =>
    if counted includeOrphans s then do
      let st ← pushBack st.1 st.2 s.hostHaloId subid
      fillMemberLists includeOrphans subs (subid + 1) st
    else fillMemberLists includeOrphans subs (subid + 1) st

/-- `SortMemberLists`, src/subhalo_tracking.cpp:99-105: `std::sort` of every view in place. `sort` is
`std::sort` with `CompareMass_t`. -/
def sortMemberLists (sort : List Nat → List Nat) : List View → List Nat → Outcome (List Nat)
  | [], all => .ok all
  | v :: vs, all => do
    let xs ← slice all v.off v.n
    let all ← writeAt all v.off (sort xs)
    sortMemberLists sort vs all

/-- `CountEmptyGroups`, src/subhalo_tracking.cpp:130-140 (host groups only, not the field group). -/
def countEmptyGroups (groups : List View) : Nat := (groups.tail.filter (fun v => v.n == 0)).length

/-- `Build`, src/subhalo_tracking.cpp:150-162. `Init` (39-48) gives `nhalos+1` empty views and
`AllMembers` the size of the subhalo list. -/
def buildTable (sort : List (Sub K D) → List Nat → List Nat) (nhalos : Nat) (subs : List (Sub K D))
    (includeOrphans : Bool) : Outcome MemberTable := do
  let groups ← countMembers includeOrphans subs (List.replicate (nhalos + 1) ⟨0, 0⟩)
  let st ← fillMemberLists includeOrphans subs 0
    (bindMemberLists groups 0, List.replicate subs.length 0)
  let all ← sortMemberLists (sort subs) st.1 st.2
  .ok ⟨all, st.1, countEmptyGroups st.1⟩

/-- Reading group `h` (all its members in order). Part of `sortMemberLists`, src/subhalo_tracking.cpp:99-105. -/
def MemberTable.group (t : MemberTable) (h : Int) : Outcome (List Nat) := do
  let g ← groupIndex h
  let v ← Outcome.get t.groups g
  slice t.all v.off v.n

/-- `for(i=0;i<SubGroup.size();i++) Subhalos[SubGroup[i]].Rank=f(i)`.
Part of `assignRanksFrom`, src/subhalo_tracking.cpp:122-128. -/
def setRanks (f : Nat → Int) : List Nat → Nat → List (Sub K D) → Outcome (List (Sub K D))
  | [], _, subs => .ok subs
  | id :: ids, i, subs => do
    let s ← Outcome.get subs id
    let subs ← Outcome.set subs id (s.withRank (f i))
    setRanks f ids (i + 1) subs

/-- `AssignRanks` for the groups from host `h` on, src/subhalo_tracking.cpp:122-128. -/
def assignRanksFrom (t : MemberTable) : Nat → Int → List (Sub K D) → Outcome (List (Sub K D))
  | 0, _, subs => .ok subs
  | k + 1, h, subs => do
    let ids ← t.group h
    let subs ← setRanks (fun i => (i : Int)) ids 0 subs
    assignRanksFrom t k (h + 1) subs

/-- `AssignRanks`, src/subhalo_tracking.cpp:113-129. The parallel loops write distinct subhaloes, so
the model runs them in order. -/
def assignRanks (t : MemberTable) (subs : List (Sub K D)) : Outcome (List (Sub K D)) := do
  let ids ← t.group (-1)
  let subs ← setRanks (fun _ => 0) ids 0 subs
  assignRanksFrom t (t.groups.length - 1) 0 subs

end HBT.Model
