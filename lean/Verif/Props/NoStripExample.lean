import Verif.Props.NoStrip
import Verif.Props.MainExample
/-!
# The execution of `MainExample` with the build without stripping

In the second snapshot the main build strips two particles from the second track; this one does not.
-/
namespace HBT.Props
open HBT HBT.Model HBT.Spec HBT.MainLoop HBT.NoStrip

def mFirstNoStrip (b : Build ℚ Nat Int) := do
  let st ← launch 2 b 0 mNone
  sessionNoStrip b [(mW0, mOps2), (mW1, mOps2)] st mNone

def mSecondNoStrip (b : Build ℚ Nat Int) := do
  let x ← mFirstNoStrip b
  let disks := fun i => if i = 2 then mJunk else x.2 i
  let st ← launch 1 b 2 disks
  sessionNoStrip b [(mW2, mOps1)] st disks

set_option maxRecDepth 100000 in
example : mResult (mFirstNoStrip (mBuild true false)) = some [
    [⟨0, 200, 0, [], 9, [(9, 1), (2, 1), (3, 1), (4, 1), (5, 1), (1, 1), (7, 1), (8, 1), (6, 1)], -1, -1⟩],
    [⟨1, -1, 0, [], 4, [(8, 1), (10, 1), (9, 1), (7, 1)], -1, -1⟩, ⟨2, 203, 0, [], 2, [(12, 1), (11, 1)], -1, -1⟩]] := by
  decide +kernel

theorem mReachNoStrip (d n : Bool) : ∃ disks, disks 2 = mJunk ∧ ReachNoStrip (mBuild d n) mSim disks [⟨2, mW1⟩, ⟨2, mW0⟩] := by
  obtain ⟨st, st', disks', e, e'⟩ := C70_never_fails (mBuild_ok d n) (mSim_ok d n) (.start mNone) (by decide) (Nat.le_refl 0) (mXs_ok d n)
  exact ⟨_, rfl, .session (.start mNone) (by decide) (Nat.le_refl 0) (mXs_ok d n) e e' mJunk⟩

/-- After the stop one process goes on. -/
example : ∃ disks st st' disks', ReachNoStrip (mBuild false true) mSim disks [⟨2, mW1⟩, ⟨2, mW0⟩] ∧
    launch 1 (mBuild false true) 2 disks = .ok st ∧ sessionNoStrip (mBuild false true) [(mW2, mOps1)] st disks = .ok (st', disks') := by
  obtain ⟨disks, _, h⟩ := mReachNoStrip false true
  obtain ⟨st, st', disks', e, e'⟩ := C70_never_fails (mBuild_ok _ _) (mSim_ok _ _) h (show 0 < 1 by decide) (show 2 ≤ 2 by decide) (mYs_ok _ _)
  exact ⟨disks, st, st', disks', h, e, e'⟩

/-- The catalogue of the second snapshot, read by three processes. -/
example : ∃ disks, ReachNoStrip (mBuild true false) mSim disks [⟨2, mW1⟩, ⟨2, mW0⟩] ∧ ∃ ld : Fin 3 → List (Sub ℚ Nat),
    loadSubs 3 .source 99 0 1 1 (disks 1) = .ok ld ∧ ∀ s ∈ everyone ld, s.nbound = s.particles.length := by
  obtain ⟨disks, _, h⟩ := mReachNoStrip true false
  obtain ⟨ld, h1, _, h3⟩ := C70_catalogue (mBuild_ok _ _) (mSim_ok _ _) h (x := ⟨2, mW1⟩) (by simp) (show 0 < 3 by decide)
  exact ⟨disks, h, ld, h1, fun s hs => (h3 s hs).1⟩

/-- The main build's catalogue of the second snapshot is not so. -/
example : (match mFirst (mBuild true false) with
    | .ok x => decide (∃ s ∈ everyone x.1, s.nbound ≠ s.particles.length)
    | _ => false) = true := by decide +kernel

example : ∃ disks, ReachNoStrip (mBuild true false) mSim disks [⟨2, mW1⟩, ⟨2, mW0⟩] ∧
    ∃ tr : List (Σ P, Snapshot ℚ Nat (Capped Int) P), Run (params (mBuild true false)) tr ∧ tr.length = 2 := by
  obtain ⟨disks, _, h⟩ := mReachNoStrip true false
  obtain ⟨tr, h1, h2, _⟩ := C70_history (mBuild_ok _ _) (mSim_ok _ _) h
  exact ⟨disks, h, tr, h1, h2⟩

/-- The tracks of the first catalogue are in the second. -/
example : ∃ disks, ReachNoStrip (mBuild true false) mSim disks [⟨2, mW1⟩, ⟨2, mW0⟩] ∧ ∃ ldx ldy : Fin 1 → List (Sub ℚ Nat),
    loadSubs 1 .source 99 0 0 0 (disks 0) = .ok ldx ∧ loadSubs 1 .source 99 0 1 1 (disks 1) = .ok ldy ∧
    ∀ s ∈ everyone ldx, ∃ s' ∈ everyone ldy, s'.trackId = s.trackId := by
  obtain ⟨disks, _, h⟩ := mReachNoStrip true false
  obtain ⟨ldx, h1, _⟩ := C70_catalogue (mBuild_ok _ _) (mSim_ok _ _) h (x := ⟨2, mW0⟩) (by simp) (show 0 < 1 by decide)
  obtain ⟨ldy, h2, _⟩ := C70_catalogue (mBuild_ok _ _) (mSim_ok _ _) h (x := ⟨2, mW1⟩) (by simp) (show 0 < 1 by decide)
  exact ⟨disks, h, ldx, ldy, h1, h2, C70_tracks_stay (mBuild_ok _ _) (mSim_ok _ _) h (x := ⟨2, mW0⟩) (y := ⟨2, mW1⟩) (by simp) (by simp)
    (by decide) (by decide) (by decide) h1 h2⟩

/-- A stop while the second catalogue is written. -/
example : ∃ (stF st2 : Fin 2 → List (Sub ℚ Nat)) (disksF disks1 disks2 : Int → Disk ℚ Nat) (st st1 st1' : Fin 2 → List (Sub ℚ Nat)),
    launch 2 (mBuild true true) 0 mNone = .ok st ∧
    sessionNoStrip (mBuild true true) [(mW0, mOps2), (mW1, mOps2)] st mNone = .ok (stF, disksF) ∧
    sessionNoStrip (mBuild true true) [(mW0, mOps2)] st mNone = .ok (st1, disks1) ∧
    launch 2 (mBuild true true) 1 (fun i => if i = 1 then mJunk else disks1 i) = .ok st1' ∧
    sessionNoStrip (mBuild true true) [(mW1, mOps2)] st1' (fun i => if i = 1 then mJunk else disks1 i) = .ok (st2, disks2) ∧ st2 = stF := by
  have hb := mBuild_ok true true
  have hs := mSim_ok true true
  have hx1 : Consecutive (mBuild true true) mSim ((mBuild true true).minIndex + (0 : Nat)) [(mW0, mOps2)] :=
    .cons rfl (mW0_ok _ _) (by decide) (.nil _)
  obtain ⟨st, stF, disksF, e, full⟩ := C70_never_fails hb hs (.start mNone) (by decide) (Nat.le_refl 0) (mXs_ok true true)
  obtain ⟨st0, st1, disks1, e0, part⟩ := C70_never_fails hb hs (.start mNone) (by decide) (Nat.le_refl 0) hx1
  rw [e] at e0
  cases e0
  have hr := ReachNoStrip.session (.start mNone) (by decide) (Nat.le_refl 0) hx1 e part mJunk
  obtain ⟨st1', st2, disks2, again, rest⟩ := C70_never_fails hb hs hr (show 0 < 2 by decide) (show 1 ≤ 1 by decide)
    (xs := [(mW1, mOps2)]) (.cons rfl (mW1_ok _ _) (by decide) (.nil _))
  exact ⟨stF, st2, disksF, disks1, disks2, st, st1, st1', e, full, part, again, rest,
    (C70_restart hb hs (.start mNone) (by decide) (Nat.le_refl 0) (xs := [(mW0, mOps2)]) (mXs_ok true true) e full part mJunk again rest).2
      (by simp)⟩

/-- Four particles of which two have positive energies, and one alone. -/
def stripped : Sub ℚ Nat :=
  { trackId := 3, nbound := 2, particles := [⟨10, 0⟩, ⟨11, 0⟩, ⟨12, 0⟩, ⟨13, 0⟩], hostHaloId := 5, rank := 0, nested := [], mbound := 2
    lastMaxMass := 2, snapDeath := nullSnap, snapSink := nullSnap, sinkTrackId := nullTrack }

example : ∃ s', unbindFullNoStrip (mBuild true false).cfg (mEnv (fun i => 7 - 4 * (i : Int))) 8 stripped = .ok s' ∧ s'.nbound = 4 ∧
    s'.particles.map Particle.id = [13, 12, 11, 10] ∧ s'.mbound = 4 := by
  have h : (match unbindFullNoStrip (mBuild true false).cfg (mEnv (fun i => 7 - 4 * (i : Int))) 8 stripped with
      | .ok s' => decide (s'.nbound = 4 ∧ s'.particles.map Particle.id = [13, 12, 11, 10] ∧ s'.mbound = 4)
      | _ => false) = true := by decide +kernel
  split at h
  · exact ⟨_, by assumption, of_decide_eq_true h⟩
  · cases h

example : ∃ s', unbindFullNoStrip (mBuild true false).cfg (mEnv (fun i => 7 - 4 * (i : Int))) 8 stripped = .ok s' ∧
    s'.nbound = s'.particles.length := by
  obtain ⟨s', e, _, _, _, h, _⟩ := C70_unbind (cfg := (mBuild true false).cfg) (env := mEnv (fun i => 7 - 4 * (i : Int)))
    ⟨exESort_spec, fun _ => List.Perm.refl _⟩ (stops_exact (by norm_num [mBuild])) (by decide) 8 stripped
  exact ⟨s', e, (h (by decide)).1⟩

end HBT.Props
