import Verif.Spec.MassSum
import Verif.Lemmas.Rounding
/-!
# Masses in single precision

The numbers and sums of the build with `typedef float HBTReal` (src/datatypes.h:44). Any rounding to nearest will do, and for the sums
in parallel any distribution of the particles over the threads and any order. Simplified: no overflow and no underflow
(`Spec/Rounding.lean`).
-/
namespace HBT.Model
open HBT HBT.Spec

/-- A number of type `float`, src/datatypes.h:44. -/
@[ext] structure Single where
  val : ℚ
  rep : Rep 24 val

namespace Single

instance : LinearOrder Single := LinearOrder.lift' val (fun _ _ h => Single.ext h)

/-- The arithmetic of the machine: the rounding to `float` and to `double` (`typedef`s of src/datatypes.h:36-45), and the groups of
masses (one for each thread, in the order in which it adds them) that OpenMP makes of the masses, src/subhalo_unbind.cpp:121-131. -/
structure Machine where
  threads : Nat
  single : ℚ → ℚ
  double : ℚ → ℚ
  groups : Nat → List Single → List (List Single)
  single_ : RoundsToNearest 24 single
  double_ : RoundsToNearest 53 double
  threads_ : ∀ way l, (groups way l).length ≤ threads
  groups_ : ∀ way l, (groups way l).flatten.Perm l

/-- Add up, one after the other, rounding after each addition: `Mbound+=Particles[i].Mass`, src/subhalo.cpp:486, and `msum+=m`,
src/subhalo_unbind.cpp:126. -/
def addUp (fl : ℚ → ℚ) (l : List ℚ) : ℚ := l.foldl (fun s m => fl (s + m)) 0

/-- A product of two masses or factors, rounded (`Subhalos[List[0]].Mbound*HBTConfig.MajorProgenitorMassRatio`, src/subhalo_tracking.cpp:446). -/
def mul (M : Machine) (x y : Single) : Single := ⟨M.single (x.val * y.val), (M.single_ _).1⟩

theorem addUp_rep {fl : ℚ → ℚ} {p : Nat} (h : RoundsToNearest p fl) (l : List ℚ) : Rep p (addUp fl l) := by
  rcases List.eq_nil_or_concat l with rfl | ⟨l, m, rfl⟩
  · exact Rep.zero
  · rw [List.concat_eq_append, addUp, List.foldl_append]
    exact (h _).1

/-- The sums of the program: `CountParticles`, src/subhalo.cpp:485-486, adds in single precision; `AverageVelocity`,
src/subhalo_unbind.cpp:108-140, adds in double precision, first within each thread, then the results of the threads, and the caller
converts to single precision (line 393). -/
@[reducible] def sums (M : Machine) : MassSum Single where
  zero := ⟨0, Rep.zero⟩
  count l := ⟨addUp M.single (l.map Single.val), addUp_rep M.single_ _⟩
  average way l := ⟨M.single (addUp M.double ((M.groups way l).map (fun g => addUp M.double (g.map Single.val)))), (M.single_ _).1⟩
  count_nil := rfl
  count_single m := Single.ext (by
    show M.single (0 + m.val) = m.val
    rw [zero_add]
    exact M.single_.exact m.rep)

end Single
end HBT.Model
