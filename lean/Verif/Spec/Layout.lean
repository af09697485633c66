import Verif.Spec.Types
/-!
# Structures in memory, and messages of structures

What the C++ ABI and the MPI standard say; nothing of the program.
-/
namespace HBT.Spec

/-- Types of elements: numbers of `b` bytes, characters, and vectors (three pointers). -/
inductive Elem where
  | int (b : Nat)
  | unsigned (b : Nat)
  | real (b : Nat)
  | char
  | vector
  deriving DecidableEq

/-- `sizeof`. -/
def Elem.size : Elem → Nat
  | .int b => b
  | .unsigned b => b
  | .real b => b
  | .char => 1
  | .vector => 24

/-- `alignof`. -/
def Elem.align : Elem → Nat
  | .vector => 8
  | e => e.size

/-- A member of a structure: `count` elements of a type. -/
structure Member where
  name : String
  elem : Elem
  count : Nat
  deriving DecidableEq

/-- The number of bytes. -/
def Member.bytes (m : Member) : Nat := m.elem.size * m.count

/-- The next multiple of `a`. -/
def roundUp (n a : Nat) : Nat := (n + a - 1) / a * a

/-- The members with their offsets: each at the next multiple of its alignment. -/
def offsetsFrom : Nat → List Member → List (Member × Nat)
  | _, [] => []
  | n, m :: ms => (m, roundUp n m.elem.align) :: offsetsFrom (roundUp n m.elem.align + m.bytes) ms

def offsets (ms : List Member) : List (Member × Nat) := offsetsFrom 0 ms

/-- The bytes after the last member. -/
def endFrom : Nat → List Member → Nat
  | n, [] => n
  | n, m :: ms => endFrom (roundUp n m.elem.align + m.bytes) ms

/-- The size of the structure: a multiple of the largest alignment. -/
def structSize (ms : List Member) : Nat := roundUp (endFrom 0 ms) (ms.foldr (fun m a => max m.elem.align a) 1)

/-- Memory from the beginning of an array of structures on. -/
abbrev Mem := Nat → Byte

/-- The bytes of member `m`, which has offset `m.2`, of structure `k` of an array. -/
def memberOf (ms : List Member) (k : Nat) (m : Member × Nat) (mem : Mem) : List Byte :=
  (List.range m.1.bytes).map (fun j => mem (k * structSize ms + m.2 + j))

/-- A type for messages lists blocks: offset and length in bytes. The message of `n` structures that begin `extent` bytes apart consists
of the bytes of their blocks, one after the other. -/
def blocksOf (extent n : Nat) (blocks : List (Nat × Nat)) : List (Nat × Nat) :=
  (List.range n).flatMap (fun k => blocks.map (fun b => (k * extent + b.1, b.2)))

/-- The bytes of the blocks. -/
def gatherBytes (blocks : List (Nat × Nat)) (mem : Mem) : List Byte :=
  blocks.flatMap (fun b => (List.range b.2).map (fun j => mem (b.1 + j)))

/-- Memory after bytes are written from a position on. -/
def writeBytes (mem : Mem) (pos : Nat) (bs : List Byte) : Mem := fun i =>
  if pos ≤ i then
    match bs[i - pos]? with
    | some b => b
    | none => mem i
  else mem i

/-- The receiver takes the blocks from the message in order. -/
def scatterBytes : List (Nat × Nat) → List Byte → Mem → Mem
  | [], _, mem => mem
  | b :: bs, msg, mem => scatterBytes bs (msg.drop b.2) (writeBytes mem b.1 (msg.take b.2))

/-- The memory `dst` of the receiver after a message of `n` structures in `src`. -/
def delivered (extent n : Nat) (blocks : List (Nat × Nat)) (src dst : Mem) : Mem :=
  scatterBytes (blocksOf extent n blocks) (gatherBytes (blocksOf extent n blocks) src) dst

/-- After the transfer of `n` structures with members `ms` from `src` to `dst`: every member of each of them has arrived, but a vector is
still the receiver's own; nothing beyond the `n` structures has changed. -/
def Arrived (ms : List Member) (n : Nat) (src dst after : Mem) : Prop :=
  (∀ k, k < n → ∀ m ∈ offsets ms, memberOf ms k m after = if m.1.elem = .vector then memberOf ms k m dst else memberOf ms k m src) ∧
  ∀ i, n * structSize ms ≤ i → after i = dst i

/-- Messages with these blocks carry every member but the vectors. -/
def Carries (ms : List Member) (blocks : List (Nat × Nat)) : Prop :=
  ∀ (n : Nat) (src dst : Mem), Arrived ms n src dst (delivered (structSize ms) n blocks src dst)

/-- A type that may be used to receive: no byte occurs twice (MPI 3.1, section 4.1.11). -/
def Receivable (blocks : List (Nat × Nat)) : Prop := blocks.Pairwise (fun a b => a.1 + a.2 ≤ b.1 ∨ b.1 + b.2 ≤ a.1)

instance (blocks : List (Nat × Nat)) : Decidable (Receivable blocks) := by unfold Receivable; infer_instance

end HBT.Spec
