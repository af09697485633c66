import Verif.Props.ThreadsCentrals
import Verif.Props.ThreadsExample
import Verif.Props.MainExample
/-!
# `DecideCentrals` and `FeedCentrals` with threads: a concrete session, and what depends on the schedule
-/
namespace HBT.Props
open HBT HBT.Model HBT.Spec HBT.Threads HBT.MainLoop

/-- The second snapshot of the session of `Props/MainExample`, with two processes. -/
example : ∃ (hosted : Fin 2 → List (Sub ℚ Nat)) (halos : Fin 2 → List (HaloRec Int (Particle Nat))), ∀ r newCentres,
    CentralsByThreads (mBuild true false) mW1 r (halos r) (hosted r) Nat (fun _ y => -(y : Int)) (List.range (hosted r).length)
      (List.range (halos r).length) newCentres := by
  obtain ⟨st, st', disks', e, e'⟩ := C58_never_fails (mBuild_ok true false) (mSim_ok _ _) (.start mNone) (by decide) (Nat.le_refl 0)
    (xs := [(mW0, mOps2)]) (.cons rfl (mW0_ok _ _) (by decide) (.nil _))
  obtain ⟨x, halos, subs, hosted, _, _, _, _, h⟩ := C61_centrals (mBuild_ok true false) (mSim_ok _ _) (.start mNone) (by decide) (Nat.le_refl 0)
    (xs := [(mW0, mOps2)]) (mXs_ok _ _) e e'
  refine ⟨hosted, halos, fun r newCentres => h r Nat _ _ _ newCentres (List.length_range) (List.length_range) ?_⟩
  intro h i x y _ hy
  have : y = i := by
    have := (List.getElem?_eq_some_iff.1 hy).2
    simpa using this.symm
  rw [this]
  rfl

/-! ## The indices of new subhaloes -/

/-- Three haloes; the second has the subhaloes 0 and 1 (of equal mass), the others none. -/
def cHosted : List (Sub ℚ Nat) :=
  [{ mbound := 5, lastMaxMass := 5, hostHaloId := 1, particles := [⟨4, 0⟩, ⟨5, 0⟩], nbound := 2 },
   { mbound := 5, lastMaxMass := 5, hostHaloId := 1, particles := [⟨6, 0⟩], nbound := 1 }]

def cHalos : List (List (Particle Nat)) := [[⟨1, 0⟩], [⟨4, 0⟩, ⟨5, 0⟩, ⟨6, 0⟩], [⟨2, 0⟩, ⟨3, 0⟩]]

/-- The subhalo 1 is closer to the centre of its halo. -/
def cDecide : CWorld ℚ Nat Int := ⟨cHosted, [30, 21], [[], [0, 1], []], cHalos, [10, 20, 50], 0⟩
def cFeed : CWorld ℚ Nat Int :=
  ⟨cHosted ++ [freshSub, freshSub], [30, 21, 0, 0], [[], [1, 0], []], cHalos, [10, 20, 50], 2⟩

example : Completes Races [decidePhase (2 / 3 : ℚ) (fun a b : Int => |a - b|) 3] (memC cDecide) (memC { cDecide with groups := [[], [1, 0], []] }) :=
  decide_completes (w := cDecide) (d := fun h i => |([10, 20, 50].getD h 0 : Int) - [30, 21].getD i 0|) rfl rfl (by
    intro h i x y hx hy
    change [10, 20, 50][h]? = some x at hx
    change [30, 21][i]? = some y at hy
    simp [List.getD, hx, hy]) (by decide +kernel)

/-- Three threads, each with one halo. -/
def cStart : State CLoc (CLoc.Val ℚ Nat Int) 3 := ⟨memC cFeed, fun t => [[feedP 7 t.val]]⟩

/-- The threads run one after the other, in this order. -/
def cEnd (ts : List (Fin 3)) : State CLoc (CLoc.Val ℚ Nat Int) 3 := pass (ts.foldl (fun s t => goOn (fun _ => false) t 100 s) cStart)

theorem cEnd_steps (ts : List (Fin 3)) : Steps cStart (cEnd ts) := by
  have : ∀ (ts : List (Fin 3)) (s : State CLoc (CLoc.Val ℚ Nat Int) 3), Steps s (ts.foldl (fun s t => goOn (fun _ => false) t 100 s) s) := by
    intro ts
    induction ts with
    | nil => intro s; exact Relation.ReflTransGen.refl
    | cons t ts ih => intro s; exact (goOn_steps _ _ _ _).trans (ih _)
  exact (this _ _).trans (pass_steps (by decide) _)

/-- What does not hold: which of the new subhaloes comes first (and so which gets the smaller track id) depends on the schedule of the threads. -/
theorem C61_births_in_any_order : ∃ s s', Steps cStart s ∧ Steps cStart s' ∧ (∀ t, s.work t = []) ∧ (∀ t, s'.work t = []) ∧
    s.mem (.sub 2 .hostHaloId) = some 0 ∧ s.mem (.sub 3 .hostHaloId) = some 2 ∧
    s'.mem (.sub 2 .hostHaloId) = some 2 ∧ s'.mem (.sub 3 .hostHaloId) = some 0 ∧
    (∀ f, s.mem (.sub 1 f) = s'.mem (.sub 1 f)) :=
  ⟨cEnd [0, 1, 2], cEnd [2, 1, 0], cEnd_steps _, cEnd_steps _, by decide +kernel, by decide +kernel, by decide +kernel, by decide +kernel, by decide +kernel,
    by decide +kernel, by intro f; cases f <;> decide +kernel⟩

/-- The new central has the particles of the halo, with its most bound one first; the coordinates of a new subhalo are those of its halo. -/
example : (cEnd [2, 1, 0]).mem (.sub 1 .particles) = some [⟨6, 0⟩, ⟨5, 0⟩, ⟨4, 0⟩] ∧ (cEnd [2, 1, 0]).mem (.centre 2) = some 50 ∧
    (cEnd [2, 1, 0]).mem .npro = some 4 := by
  decide +kernel

end HBT.Props
