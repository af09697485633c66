import Verif.Spec.Throttle
/-!
# Model of throttled input and output

The loop of src/io/subhalo_io.cpp:145-157 (`Load`) and 284-295 (`Save`); the same loop is in
src/io/apostle_io.cpp:376-388, 429-441, src/io/gadget_io.cpp:234-246 and
src/io/gadget_group_io.cpp:414-426.
-/
namespace HBT.Model
open HBT.Spec

/-- The instructions that process `rank` executes in the iterations `i, i+1, ...` (`n` of them) of
`for(i=0,ireader=0;i<world.size();i++,ireader++)`; `limit` is `MaxConcurrentIO`, `ireader` the value of this
variable at the beginning of iteration `i`. The reading or writing itself contains no communication.
src/io/subhalo_io.cpp:145-157, 284-295. -/
def throttleFrom (limit : Int) (rank : Nat) : Nat → Nat → Int → List Instr
  | 0, _, _ => []
  | n + 1, i, ireader =>
    (if ireader = limit then [.barrier] else []) ++ (if i = rank then [.begin, .finish] else []) ++
      throttleFrom limit rank n (i + 1) ((if ireader = limit then 0 else ireader) + 1)

/-- All processes at the beginning of the loop. src/io/subhalo_io.cpp:145-157, 284-295. -/
def throttled (P : Nat) (limit : Int) : Fin P → Proc := fun r => { todo := throttleFrom limit r P 0 0 }

end HBT.Model
