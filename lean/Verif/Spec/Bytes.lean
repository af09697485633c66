import Verif.Spec.Types
/-!
# Specification vocabulary: byte order and Fortran unformatted records
-/
namespace HBT.Spec


/-- The four bytes of a 32-bit value in memory, lowest address first, for a little-endian
(`true`) or big-endian (`false`) machine. -/
def bytes32 (littleEndian : Bool) (x : BitVec 32) : List Byte :=
  let l := [x.extractLsb' 0 8, x.extractLsb' 8 8, x.extractLsb' 16 8, x.extractLsb' 24 8]
  if littleEndian then l else l.reverse

/-- A Fortran unformatted record: the payload between two equal 32-bit length markers, in the
byte order of the machine that wrote the file. -/
def record (littleEndian : Bool) (payload : List Byte) : List Byte :=
  bytes32 littleEndian (BitVec.ofNat 32 payload.length) ++ payload ++
    bytes32 littleEndian (BitVec.ofNat 32 payload.length)

/-- `out` is `inp` with each of the first `nel` elements of `m` bytes reversed and the other
bytes unchanged. -/
def ElementsReversed (inp out : List Byte) (nel m : Nat) : Prop :=
  out.length = inp.length ∧
  (∀ j i, j < nel → i < m → out[j*m+i]? = inp[j*m+(m-1-i)]?) ∧
  (∀ p, nel * m ≤ p → out[p]? = inp[p]?)

end HBT.Spec
