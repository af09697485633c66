import Verif.Model.Outcome
import Verif.Spec.Types
/-!
# Model of `swap_Nbyte` (src/mymath.cpp), `fread_swap`, `FortranBlock::Read` (src/mymath.h)
and `SkipFortranBlock` (src/mymath.cpp)
-/
namespace HBT.Model


/-- Interpret two bytes in memory as `unsigned short`; `le` is the byte order of the host.
Part of `swapElement`, src/mymath.cpp:65-86. -/
def load16 (le : Bool) (a b : Byte) : BitVec 16 :=
  if le then (b.setWidth 16 <<< 8) ||| a.setWidth 16
  else (a.setWidth 16 <<< 8) ||| b.setWidth 16
/-- Store an `unsigned short` to memory. Part of `swapElement`, src/mymath.cpp:65-86. -/
def store16 (le : Bool) (x : BitVec 16) : List Byte :=
  if le then [x.extractLsb' 0 8, x.extractLsb' 8 8] else [x.extractLsb' 8 8, x.extractLsb' 0 8]
/-- Interpret four bytes in memory as `unsigned`. Part of `swapElement`, src/mymath.cpp:65-86. -/
def load32 (le : Bool) (a b c d : Byte) : BitVec 32 :=
  if le then (d.setWidth 32 <<< 24) ||| (c.setWidth 32 <<< 16) ||| (b.setWidth 32 <<< 8) |||
    a.setWidth 32
  else (a.setWidth 32 <<< 24) ||| (b.setWidth 32 <<< 16) ||| (c.setWidth 32 <<< 8) |||
    d.setWidth 32
/-- Store an `unsigned` to memory. Part of `swapElement`, src/mymath.cpp:65-86. -/
def store32 (le : Bool) (x : BitVec 32) : List Byte :=
  if le then [x.extractLsb' 0 8, x.extractLsb' 8 8, x.extractLsb' 16 8, x.extractLsb' 24 8]
  else [x.extractLsb' 24 8, x.extractLsb' 16 8, x.extractLsb' 8 8, x.extractLsb' 0 8]

/-- Macro `SWAP_2`, src/mymath.cpp:51. The operand is an `unsigned short` promoted to `int`
(32 bits); the result is truncated on assignment (`FIX_SHORT`, line 53). -/
def swap2 (x : BitVec 16) : BitVec 16 :=
  let y : BitVec 32 := x.zeroExtend 32
  (((y &&& 0xff#32) <<< 8) ||| (((y.truncate 16).zeroExtend 32) >>> 8)).truncate 16

/-- Macro `SWAP_4`, src/mymath.cpp:52, on `unsigned` (32 bits). -/
def swap4 (x : BitVec 32) : BitVec 32 :=
  (x <<< 24) ||| ((x <<< 8) &&& 0x00ff0000#32) ||| ((x >>> 8) &&& 0x0000ff00#32) ||| (x >>> 24)

/-- One iteration of the `default` branch, src/mymath.cpp:79-83: copy the element out and write
it back reversed. -/
def reverseCopy (old : List Byte) : List Byte :=
  List.ofFn fun i : Fin old.length => old[old.length - i.val - 1]'(by omega)

/-- Body of the loop over elements for one element of `mbyte` bytes, src/mymath.cpp:65-86.
(The C++ `delete` of an array allocated by `new[]`, line 85, is not modelled.) -/
def swapElement (le : Bool) (mbyte : Nat) (e : List Byte) : List Byte :=
  match mbyte, e with
  | 1, e => e
  | 2, [a, b] => store16 le (swap2 (load16 le a b))
  | 4, [a, b, c, d] => store32 le (swap4 (load32 le a b c d))
  | _, e => reverseCopy e

/-- `swap_Nbyte(data2swap, nel, mbyte)`, src/mymath.cpp:57-88. `data` is the memory block
`data2swap` points to; touching bytes beyond it is undefined behaviour. -/
def swapNbyte (le : Bool) (data : List Byte) (nel mbyte : Nat) : Outcome (List Byte) :=
  match nel with
  | 0 => .ok data
  | nel + 1 =>
    if data.length < mbyte then .ub
    else do
      let rest ← swapNbyte le (data.drop mbyte) nel mbyte
      .ok (swapElement le mbyte (data.take mbyte) ++ rest)

/-- An open `FILE*`: contents and current position. Part of `freadSwap`, src/mymath.h:144-151. -/
structure File where
  content : List Byte
  pos : Nat
  deriving DecidableEq, Repr

/-- `fread` of `n` bytes: the bytes delivered (fewer at end of file) and the advanced file.
Part of `freadSwap`, src/mymath.h:144-151. -/
def File.read (f : File) (n : Nat) : List Byte × File :=
  let got := (f.content.drop f.pos).take n
  (got, { f with pos := f.pos + got.length })

/-- `fseek(fp, off, SEEK_CUR)`: a negative resulting position fails and leaves the file as is.
Part of `fortranRead`, src/mymath.h:210-233. -/
def File.seekCur (f : File) (off : Int) : File :=
  if (f.pos : Int) + off < 0 then f else { f with pos := ((f.pos : Int) + off).toNat }

/-- `fread_swap(buf, member_size, member_count, fp, FlagByteSwap)`, src/mymath.h:144-151.
`buf` holds the previous content of the buffer (`member_size*member_count` bytes); a short
read leaves its tail in place. The swap covers all members, read or not. -/
def freadSwap (le : Bool) (buf : List Byte) (msize mcount : Nat) (f : File) (swap : Bool) :
    Outcome (List Byte × File) :=
  let r := f.read (msize * mcount)
  let buf' := r.1 ++ buf.drop r.1.length
  if swap then do
    let b ← swapNbyte le buf' mcount msize
    .ok (b, r.2)
  else .ok (buf', r.2)

/-- `ReadBlockSize(a)`: read one `int` length marker, src/mymath.h:221, src/mymath.cpp:263.
The variable is uninitialised before, so a short read makes its later use undefined. -/
def readBlockSize (le : Bool) (f : File) (swap : Bool) : Outcome (Int × File) :=
  let r := f.read 4
  match r.1 with
  | [a, b, c, d] => do
    let m ← if swap then swapNbyte le [a, b, c, d] 1 4 else .ok [a, b, c, d]
    match m with
    | [a, b, c, d] => .ok ((load32 le a b c d).toInt, r.2)
    | _ => .ub
  | _ => .ub

/-- `FortranBlock::Read(fp, n_read, n_skip, NeedByteSwap)` on a freshly constructed block
(zero-initialised data of `n_read` members), src/mymath.h:210-233. `msize = sizeof(T)`.
The product `(n_skip+n_read)*msize` is assumed to fit in a `long`. -/
def fortranRead (le : Bool) (msize nRead nSkip : Nat) (f : File) (swap : Bool) :
    Outcome (List Byte × File) := do
  let (blocksize, f) ← readBlockSize le f swap
  let f := f.seekCur (nSkip * msize : Nat)
  let (data, f) ← freadSwap le (List.replicate (msize * nRead) 0#8) msize nRead f swap
  let f := f.seekCur (blocksize - ((nSkip + nRead) * msize : Nat))
  let (blocksize2, f) ← readBlockSize le f swap
  if blocksize = blocksize2 then .ok (data, f) else .abort

/-- `SkipFortranBlock(fp, NeedByteSwap)`, src/mymath.cpp:260-270. -/
def skipFortranBlock (le : Bool) (f : File) (swap : Bool) : Outcome (Int × File) := do
  let (blocksize, f) ← readBlockSize le f swap
  let f := f.seekCur blocksize
  let (blocksize2, f) ← readBlockSize le f swap
  if blocksize = blocksize2 then .ok (blocksize, f) else .abort

end HBT.Model
