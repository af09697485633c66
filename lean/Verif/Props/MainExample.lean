import Verif.Props.Main
import Verif.Props.RunExample
/-!
# A concrete execution of the main loop

Twelve particles. At first there are two groups; they merge, and one of the two tracks becomes a satellite which loses most of its particles.
Two processes compute the first two snapshots; after a stop, one process computes the third.
-/
namespace HBT.Props
open HBT HBT.Model HBT.Spec HBT.MainLoop

def mSort {β : Type} (key : β → Int) (l : List β) : List β := l.insertionSort (fun a b => key a ≤ key b)

theorem mSort_spec {β : Type} (key : β → Int) : SortBySpec key (mSort key) where
  perm l := List.perm_insertionSort _ l
  sorted l := by
    haveI : Std.Total (fun a b : β => key a ≤ key b) := ⟨fun a b => le_total (key a) (key b)⟩
    haveI : IsTrans β (fun a b => key a ≤ key b) := ⟨fun _ _ _ h h' => le_trans h h'⟩
    exact List.pairwise_insertionSort _ l

/-- Particle data: the snapshot. Each particle has mass 1. Group data: the group id; a group goes to a process according to its id. -/
def mBuild (dmOnly needHash : Bool) : Build ℚ Nat Int :=
  { dmOnly := dmOnly, needHash := needHash, fullGroups := false, chunk := 3, fill := ⟨0, 0⟩, hostChunk := 2, nestChunk := 4
    sortIds := mSort Particle.id, sortTagged := mSort (fun q => q.1.id), sortRanks := mSort Prod.fst
    sortKeys := exKeySort, bsearch := exampleBsearch, sortMass := exMassSort, average := id
    cell := fun P h => .ok (h.shell % (P : Int)), haloId := id, ratio := 4/5
    cfg := { minNum := 2, maxSample := 0, refine := false, prec := 9/10, relax := 3 }
    mass := fun _ => 1, merging := true, minIndex := 0, snapId := id, blank := 99 }

theorem mBuild_ok (dmOnly needHash : Bool) : BuildOk (mBuild dmOnly needHash) where
  chunk := by decide +revert
  nestChunk := by decide +revert
  ids := mSort_spec _
  tagged := mSort_spec _
  ranks := mSort_spec _
  keys := exKeySort_spec
  search := exampleBsearch_spec
  mass := exMassSort_spec
  average := fun _ => ⟨rfl, rfl⟩
  cell := fun P hP h => ⟨⟨(h.shell % (P : Int)).toNat, by have := Int.emod_lt_of_pos h.shell (show (0 : Int) < P by omega); omega⟩, by
    have := Int.emod_nonneg h.shell (show (P : Int) ≠ 0 by omega)
    show Outcome.ok _ = Outcome.ok _
    congr 1
    show h.shell % (P : Int) = (((h.shell % (P : Int)).toNat : Nat) : Int)
    omega⟩
  prec := stops_exact (by norm_num [mBuild])
  min := by decide +revert
  relax := keeps_exact (by norm_num [mBuild])
  minIndex := by decide +revert

/-- The grid of processes (`assignCell`) is such a distribution of the groups. -/
example (root : Nat → Nat → Nat) (hr : RootOk root) (P : Nat) (hP : 0 < P) (step : Fin 3 → ℚ) (centre : Int → Fin 3 → ℚ) :
    ∃ f, closestFactors root P 3 = .ok f ∧ ∀ h : HaloRec Int (Particle Nat),
      ∃ r : Fin P, assignCell (centre h.shell) step (f.map Int.ofNat) = .ok (r.val : Int) := by
  obtain ⟨f, hf, _, hc⟩ := C03_decomposition root hr P hP step
  refine ⟨f, hf, fun h => ?_⟩
  obtain ⟨r, h1, h2, h3⟩ := hc (centre h.shell)
  exact ⟨⟨r.toNat, by omega⟩, by rw [h1]; congr 1; show r = ((r.toNat : Nat) : Int); omega⟩

def mEnv (e : Nat → Int) : UnbindEnv ℚ Nat Int :=
  { energy := fun _ => e, inner := fun _ => 0, junk := fun _ => 0, shuffle := id, sortE := exESort, mass := fun _ => 1 }

/-- A snapshot. All schedules go backwards. In snapshot `1` most particles of a satellite are unbound; in the last the small track has sunk. -/
def mWorld {P : Nat} (snap : Int) (parts : Fin P → List Int) (halos : Fin P → List (Int × List Int)) : SnapInput ℚ Nat Int Int Int P :=
  { snap := snap, parts := fun r => (parts r).map (fun i => ⟨i, snap.toNat⟩)
    halos := fun r => (halos r).map (fun h => ⟨h.1, h.2.map (fun i => ⟨i, 77⟩)⟩)
    tableOrder := fun _ => List.reverse, feedOrder := fun _ => List.reverse, nestOrder := fun _ => List.reverse, maskOrder := fun _ => List.reverse
    hostOrder := fun _ => List.reverse, loneOrder := fun _ => List.reverse, mergeOrder := fun _ => List.reverse, eachOrder := fun _ => List.reverse
    dist := fun _ _ _ _ i => -(i : Int)
    env := fun _ st i => mEnv (fun k => if snap = 1 ∧ ((st[i]?).map (fun s => s.particles.length)).getD 0 < 5 ∧ 2 ≤ k then 1 else -1)
    env' := fun _ _ _ => mEnv (fun _ => -1)
    sunk := fun _ _ _ _ => snap = 2 }

theorem mWorld_ok {P : Nat} (dmOnly needHash : Bool) (snap : Int) (parts : Fin P → List Int) (halos : Fin P → List (Int × List Int)) (ids : List Int)
    (hP : 0 < P) (hs : 0 ≤ snap) (few : P * 4 < 2 ^ 31) (hids : (List.ofFn parts).flatten.Perm ids) (hn : ids.Nodup) (h0 : ∀ i ∈ ids, 0 ≤ i)
    (hen : P ≤ ids.length) (hh : ((List.ofFn halos).flatten.map Prod.fst).Nodup) (hnn : ∀ r, ∀ h ∈ halos r, h.1 ≠ -1)
    (hm : ∀ r, ∀ h ∈ halos r, ∀ i ∈ h.2, i ∈ ids) : SnapInputOk (mBuild dmOnly needHash) ids (mWorld snap parts halos) where
  procs := hP
  few := few
  snap := hs
  ids_ := by
    have : (allParticles (mWorld snap parts halos).parts).map Particle.id = (List.ofFn parts).flatten := by
      unfold allParticles mWorld
      rw [List.map_flatten, List.map_ofFn]
      congr 2
      funext r
      simp [Function.comp_def]
    rw [this]
    exact hids
  distinct := hn
  nonneg := h0
  enough := hen
  haloIds := by
    have : ((List.ofFn (mWorld snap parts halos).halos).flatten.map (fun h => (mBuild dmOnly needHash).haloId h.shell))
        = (List.ofFn halos).flatten.map Prod.fst := by
      unfold mWorld mBuild
      rw [List.map_flatten, List.map_ofFn, List.map_flatten, List.map_ofFn]
      congr 2
      funext r
      simp [Function.comp_def]
    rw [this]
    exact hh
  noNull := by
    intro r h hh
    obtain ⟨g, hg, rfl⟩ := List.mem_map.1 hh
    exact hnn r g hg
  members := by
    intro r h hh p hp
    obtain ⟨g, hg, rfl⟩ := List.mem_map.1 hh
    obtain ⟨i, hi, rfl⟩ := List.mem_map.1 hp
    exact Or.inl (hm r g hg i hi)
  tableOrder := fun _ _ => List.reverse_perm _
  feedOrder := fun _ _ => List.reverse_perm _
  nestOrder := fun _ _ => List.reverse_perm _
  maskOrder := fun _ _ => List.reverse_perm _
  hostOrder := fun _ _ => List.reverse_perm _
  loneOrder := fun _ _ => List.reverse_perm _
  mergeOrder := fun _ _ => List.reverse_perm _
  eachOrder := fun _ _ => List.reverse_perm _
  env := fun _ _ _ => ⟨⟨exESort_spec, fun _ => List.Perm.refl _⟩, rfl⟩
  env' := fun _ _ _ => ⟨⟨exESort_spec, fun _ => List.Perm.refl _⟩, rfl⟩

def mIds : List Int := [1, 2, 3, 4, 5, 6, 7, 8, 9, 10, 11, 12]

def mW0 : SnapInput ℚ Nat Int Int Int 2 := mWorld 0 (pick [12, 3, 5, 1, 8] [2, 4, 11, 6, 10, 7, 9]) (pick [(101, [7, 8, 9, 10])] [(100, [1, 2, 3, 4, 5, 6])])
def mW1 : SnapInput ℚ Nat Int Int Int 2 := mWorld 1 (pick [1, 2, 3, 4, 5, 6, 7] [8, 9, 10, 11, 12]) (pick [] [(203, [11, 12]), (200, [1, 2, 3, 4, 5, 6, 7, 8, 9])])
def mW2 : SnapInput ℚ Nat Int Int Int 1 := mWorld 2 (fun _ => [12, 11, 10, 9, 8, 7, 6, 5, 4, 3, 2, 1]) (fun _ => [(300, [1, 2, 3, 4, 5, 6, 7, 8, 9, 11, 12])])

def mOps2 : List (WriteOp 2) := [.sub 1, .src 0, .sub 0, .src 1]
def mOps1 : List (WriteOp 1) := [.sub 0, .src 0]

/-- What the examples show of a subhalo. -/
structure MRow where
  track : Int
  host : Int
  rank : Int
  nested : List Int
  nbound : Nat
  particles : List (Int × Nat)
  death : Int
  sink : Int
  deriving DecidableEq

def mShow (l : List (Sub ℚ Nat)) : List MRow :=
  l.map (fun s => ⟨s.trackId, s.hostHaloId, s.rank, s.nested, s.nbound, s.particles.map (fun p => (p.id, p.data)), s.snapDeath, s.sinkTrackId⟩)

def mNone : Int → Disk ℚ Nat := fun _ => ⟨fun _ => none, fun _ => none⟩

def mFirst (b : Build ℚ Nat Int) := do
  let st ← launch 2 b 0 mNone
  session b [(mW0, mOps2), (mW1, mOps2)] st mNone

/-- After a stop while the third catalogue was written (by other processes, say), one process goes on. -/
def mJunk : Disk ℚ Nat := ⟨fun _ => some ⟨7, 3, 1, [], [], [], []⟩, fun _ => some [[5]]⟩

def mSecond (b : Build ℚ Nat Int) := do
  let x ← mFirst b
  let disks := fun i => if i = 2 then mJunk else x.2 i
  let st ← launch 1 b 2 disks
  session b [(mW2, mOps1)] st disks

def mResult {P : Nat} (x : Outcome ((Fin P → List (Sub ℚ Nat)) × (Int → Disk ℚ Nat))) :
    Option (List (List MRow)) :=
  match x with
  | .ok y => some (List.ofFn (fun r => mShow (y.1 r)))
  | _ => none

set_option maxRecDepth 100000 in
example : mResult (mFirst (mBuild true false)) = some [
    [⟨0, 200, 0, [], 9, [(9, 1), (2, 1), (3, 1), (4, 1), (5, 1), (1, 1), (7, 1), (8, 1), (6, 1)], -1, -1⟩],
    [⟨1, -1, 0, [], 2, [(10, 1), (8, 1), (9, 1), (7, 1)], -1, -1⟩, ⟨2, 203, 0, [], 2, [(12, 1), (11, 1)], -1, -1⟩]] := by
  decide +kernel

set_option maxRecDepth 100000 in
example : mResult (mFirst (mBuild false true)) = mResult (mFirst (mBuild true false)) := by decide +kernel

set_option maxRecDepth 100000 in
example : mResult (mSecond (mBuild true false)) = some [[
    ⟨0, 300, 0, [2], 11, [(12, 2), (2, 2), (3, 2), (4, 2), (5, 2), (6, 2), (7, 2), (8, 2), (9, 2), (11, 2), (1, 2)], -1, -1⟩,
    ⟨2, 300, 1, [], 1, [(11, 2)], 2, 0⟩, ⟨1, -1, 0, [], 4, [(7, 2), (8, 2), (9, 2), (10, 2)], -1, -1⟩]] := by
  decide +kernel

/-! ## The hypotheses are met -/

theorem mW0_ok (d n : Bool) : SnapInputOk (mBuild d n) mIds mW0 :=
  mWorld_ok d n 0 _ _ mIds (by decide) (by decide) (by decide) (by decide) (by decide) (by decide) (by decide) (by decide) (by decide) (by decide)

theorem mW1_ok (d n : Bool) : SnapInputOk (mBuild d n) mIds mW1 :=
  mWorld_ok d n 1 _ _ mIds (by decide) (by decide) (by decide) (by decide) (by decide) (by decide) (by decide) (by decide) (by decide) (by decide)

theorem mW2_ok (d n : Bool) : SnapInputOk (mBuild d n) mIds mW2 :=
  mWorld_ok d n 2 _ _ mIds (by decide) (by decide) (by decide) (by decide) (by decide) (by decide) (by decide) (by decide) (by decide) (by decide)

def mSim : Int → List Int := fun _ => mIds

theorem mSim_ok (d n : Bool) : Persistent (mBuild d n) mSim := fun _ _ _ hx => Or.inl hx

theorem mXs_ok (d n : Bool) : Consecutive (mBuild d n) mSim ((mBuild d n).minIndex + (0 : Nat)) [(mW0, mOps2), (mW1, mOps2)] :=
  .cons rfl (mW0_ok d n) (by decide) (.cons rfl (mW1_ok d n) (by decide) (.nil _))

theorem mYs_ok (d n : Bool) : Consecutive (mBuild d n) mSim ((mBuild d n).minIndex + (2 : Nat)) [(mW2, mOps1)] :=
  .cons rfl (mW2_ok d n) (by decide) (.nil _)

/-- Two snapshots with two processes, then a stop while the third catalogue is written. -/
theorem mReach (d n : Bool) : ∃ disks, disks 2 = mJunk ∧ Reach (mBuild d n) mSim disks [⟨2, mW1⟩, ⟨2, mW0⟩] := by
  obtain ⟨st, st', disks', e, e'⟩ := C58_never_fails (mBuild_ok d n) (mSim_ok d n) (.start mNone) (by decide) (Nat.le_refl 0) (mXs_ok d n)
  exact ⟨_, rfl, .session (.start mNone) (by decide) (Nat.le_refl 0) (mXs_ok d n) e e' mJunk⟩

example : ∃ disks st st' disks', Reach (mBuild false true) mSim disks [⟨2, mW1⟩, ⟨2, mW0⟩] ∧
    launch 1 (mBuild false true) 2 disks = .ok st ∧ session (mBuild false true) [(mW2, mOps1)] st disks = .ok (st', disks') := by
  obtain ⟨disks, _, h⟩ := mReach false true
  obtain ⟨st, st', disks', e, e'⟩ := C58_never_fails (mBuild_ok _ _) (mSim_ok _ _) h (show 0 < 1 by decide) (show 2 ≤ 2 by decide) (mYs_ok _ _)
  exact ⟨disks, st, st', disks', h, e, e'⟩

/-- It may also begin again at the second snapshot. -/
example : ∃ disks st st' disks', Reach (mBuild false true) mSim disks [⟨2, mW1⟩, ⟨2, mW0⟩] ∧
    launch 2 (mBuild false true) 1 disks = .ok st ∧ session (mBuild false true) [(mW1, mOps2)] st disks = .ok (st', disks') := by
  obtain ⟨disks, _, h⟩ := mReach false true
  obtain ⟨st, st', disks', e, e'⟩ := C58_never_fails (mBuild_ok _ _) (mSim_ok _ _) h (show 0 < 2 by decide) (show 1 ≤ 2 by decide)
    (xs := [(mW1, mOps2)]) (.cons rfl (mW1_ok _ _) (by decide) (.nil _))
  exact ⟨disks, st, st', disks', h, e, e'⟩

example : ∃ disks, Reach (mBuild true false) mSim disks [⟨2, mW1⟩, ⟨2, mW0⟩] ∧
    ∃ tr : List (Σ P, Snapshot ℚ Nat Int P), Run (params (mBuild true false)) tr ∧ tr.length = 2 := by
  obtain ⟨disks, _, h⟩ := mReach true false
  obtain ⟨tr, h1, h2, _⟩ := C58_history (mBuild_ok _ _) (mSim_ok _ _) h
  exact ⟨disks, h, tr, h1, h2⟩

/-- The catalogue of the first snapshot, read by three processes. -/
example : ∃ disks, Reach (mBuild true false) mSim disks [⟨2, mW1⟩, ⟨2, mW0⟩] ∧ ∃ ld : Fin 3 → List (Sub ℚ Nat),
    loadSubs 3 .source 99 0 0 0 (disks 0) = .ok ld ∧ ∀ s ∈ everyone ld, s.hostHaloId = -1 ∨ ∃ r, ∃ g ∈ mW0.halos r, g.shell = s.hostHaloId := by
  obtain ⟨disks, _, h⟩ := mReach true false
  obtain ⟨ld, h1, _, h3⟩ := C58_catalogue (mBuild_ok _ _) (mSim_ok _ _) h (x := ⟨2, mW0⟩) (by simp) (show 0 < 3 by decide)
  exact ⟨disks, h, ld, h1, fun s hs => (h3 s hs).2.2⟩

example : ∃ st st' disks', launch 2 (mBuild true false) 0 mNone = .ok st ∧
    session (mBuild true false) [(mW0, mOps2), (mW1, mOps2)] st mNone = .ok (st', disks') ∧
    ∀ r, ∀ s ∈ st' r, ∀ p ∈ s.particles, ∃ r', p ∈ mW1.parts r' := by
  obtain ⟨st, st', disks', e, e'⟩ := C58_never_fails (mBuild_ok true false) (mSim_ok _ _) (.start mNone) (by decide) (Nat.le_refl 0) (mXs_ok _ _)
  exact ⟨st, st', disks', e, e', fun r s hs p hp => (C58_current (mBuild_ok _ _) (mSim_ok _ _) (.start mNone) (by decide) (Nat.le_refl 0)
    (xs := [(mW0, mOps2)]) (mXs_ok _ _) e e' r s hs p hp).resolve_right (fun h => by cases h.1)⟩

/-- The tracks of the first catalogue are in the second. -/
example : ∃ disks, Reach (mBuild true false) mSim disks [⟨2, mW1⟩, ⟨2, mW0⟩] ∧ ∃ ldx ldy : Fin 1 → List (Sub ℚ Nat),
    loadSubs 1 .source 99 0 0 0 (disks 0) = .ok ldx ∧ loadSubs 1 .source 99 0 1 1 (disks 1) = .ok ldy ∧
    ∀ s ∈ everyone ldx, ∃ s' ∈ everyone ldy, s'.trackId = s.trackId := by
  obtain ⟨disks, _, h⟩ := mReach true false
  obtain ⟨ldx, h1, _⟩ := C58_catalogue (mBuild_ok _ _) (mSim_ok _ _) h (x := ⟨2, mW0⟩) (by simp) (show 0 < 1 by decide)
  obtain ⟨ldy, h2, _⟩ := C58_catalogue (mBuild_ok _ _) (mSim_ok _ _) h (x := ⟨2, mW1⟩) (by simp) (show 0 < 1 by decide)
  exact ⟨disks, h, ldx, ldy, h1, h2, C58_tracks_stay (mBuild_ok _ _) (mSim_ok _ _) h (x := ⟨2, mW0⟩) (y := ⟨2, mW1⟩) (by simp) (by simp)
    (by decide) (by decide) (by decide) h1 h2⟩

/-- A stop while the second catalogue is written. -/
example : ∃ (stF st2 : Fin 2 → List (Sub ℚ Nat)) (disksF disks1 disks2 : Int → Disk ℚ Nat) (st st1 st1' : Fin 2 → List (Sub ℚ Nat)),
    launch 2 (mBuild true true) 0 mNone = .ok st ∧
    session (mBuild true true) [(mW0, mOps2), (mW1, mOps2)] st mNone = .ok (stF, disksF) ∧
    session (mBuild true true) [(mW0, mOps2)] st mNone = .ok (st1, disks1) ∧
    launch 2 (mBuild true true) 1 (fun i => if i = 1 then mJunk else disks1 i) = .ok st1' ∧
    session (mBuild true true) [(mW1, mOps2)] st1' (fun i => if i = 1 then mJunk else disks1 i) = .ok (st2, disks2) ∧ st2 = stF := by
  have hb := mBuild_ok true true
  have hs := mSim_ok true true
  have hx1 : Consecutive (mBuild true true) mSim ((mBuild true true).minIndex + (0 : Nat)) [(mW0, mOps2)] :=
    .cons rfl (mW0_ok _ _) (by decide) (.nil _)
  obtain ⟨st, stF, disksF, e, full⟩ := C58_never_fails hb hs (.start mNone) (by decide) (Nat.le_refl 0) (mXs_ok true true)
  obtain ⟨st0, st1, disks1, e0, part⟩ := C58_never_fails hb hs (.start mNone) (by decide) (Nat.le_refl 0) hx1
  rw [e] at e0
  cases e0
  have hr := Reach.session (.start mNone) (by decide) (Nat.le_refl 0) hx1 e part mJunk
  obtain ⟨st1', st2, disks2, again, rest⟩ := C58_never_fails hb hs hr (show 0 < 2 by decide) (show 1 ≤ 1 by decide)
    (xs := [(mW1, mOps2)]) (.cons rfl (mW1_ok _ _) (by decide) (.nil _))
  exact ⟨stF, st2, disksF, disks1, disks2, st, st1, st1', e, full, part, again, rest,
    (C59_restart hb hs (.start mNone) (by decide) (Nat.le_refl 0) (xs := [(mW0, mOps2)]) (mXs_ok true true) e full part mJunk again rest).2
      (by simp)⟩

end HBT.Props
