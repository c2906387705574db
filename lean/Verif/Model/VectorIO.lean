import Verif.Res
import Verif.Model.BitVector
/-!
# Model of include/routingkit/vector_io.h and src/vector_io.cpp

A file is a list of bytes. Objects are stored in the memory representation of a little-endian machine without padding
(`Pod`; the header of contraction hierarchy files, which has padding, is treated in `Model/ChFile`).

`hardened` tells whether `std::vector::operator[]` checks its index (`-D_GLIBCXX_ASSERTIONS`); the functions take the
address of element 0 even of empty vectors, which is undefined behaviour by the letter of the standard, aborts with such
checks, and is harmless otherwise.

Reading a file never fails for other reasons than its size; running out of memory is not modelled.
-/
namespace RK

abbrev Byte := BitVec 8

/-- The `k` bytes of the little-endian representation of `x`. -/
def leBytes : Nat → Nat → List Byte
  | 0, _ => []
  | k + 1, x => BitVec.ofNat 8 x :: leBytes k (x / 256)

/-- The number with the little-endian representation `l`. -/
def leVal : List Byte → Nat
  | [] => 0
  | b :: l => b.toNat + 256 * leVal l

/-- A type whose objects are copied bytewise (`std::is_pod<T>`): `sizeof(T)`, and the conversions between objects and
their memory representation. -/
structure Pod (α : Type) where
  size : Nat
  enc : α → List Byte
  dec : List Byte → α

/-- `unsigned`, 4 bytes. -/
def podUnsigned : Pod Nat := ⟨4, leBytes 4, leVal⟩

/-- `uint64_t`, 8 bytes. -/
def podWord : Pod Word := ⟨8, fun w => leBytes 8 w.toNat, fun l => BitVec.ofNat 64 (leVal l)⟩

/-- `char`. -/
def podChar : Pod Byte := ⟨1, fun b => [b], fun l => l.headD 0⟩

/-- The memory representation of an array. -/
def Pod.encAll {α : Type} (P : Pod α) (v : List α) : List Byte := v.flatMap P.enc

/-- The array of `n` elements with memory representation `l`. -/
def Pod.decAll {α : Type} (P : Pod α) : Nat → List Byte → List α
  | 0, _ => []
  | n + 1, l => P.dec (l.take P.size) :: P.decAll n (l.drop P.size)

/-- `&v[0]` for a vector of `n` elements. -/
def addressOfFirst (hardened : Bool) (n : Nat) : Res Unit := if hardened && n = 0 then .ub else .ok ()

/-! ### Streams -/

/-- An output file stream: content of the file, bytes in the buffer of the stream, free space on the device, and whether
the stream is good. `push` is the behaviour of the buffer: the number of bytes it hands on to the operating system in the
next calls of `write`; the standard leaves this open. -/
structure OStream where
  file : List Byte
  pending : List Byte
  room : Nat
  good : Bool
  push : List Nat

/-- Hand `k` bytes of the buffer on to the operating system. If the device is full the rest is lost and the stream is not
good any more. -/
def OStream.transfer (o : OStream) (k : Nat) : OStream :=
  let out := o.pending.take k
  if out.length ≤ o.room then { o with file := o.file ++ out, pending := o.pending.drop k, room := o.room - out.length }
  else { o with file := o.file ++ out.take o.room, pending := o.pending.drop k, room := 0, good := false }

/-- `std::ostream::write`. -/
def OStream.write (o : OStream) (l : List Byte) : OStream :=
  if o.good then
    let o' := OStream.transfer { o with pending := o.pending ++ l } (o.push.headD 0)
    { o' with push := o.push.tail }
  else o

/-- The destructor of the stream writes the buffer; errors are ignored. -/
def OStream.close (o : OStream) : List Byte := (o.transfer o.pending.length).file

/-- The circumstances of saving a file: can the file be opened for writing, how many bytes does the device accept, and
the behaviour of the buffer. -/
structure Disk where
  canOpen : Bool
  room : Nat
  push : List Nat

/-- An opened empty file. -/
def Disk.opened (d : Disk) : OStream := ⟨[], [], d.room, true, d.push⟩

/-- `std::istream::read` of `k` bytes followed by a check of the stream: the bytes and the rest of the stream. -/
def readBytes (src : List Byte) (k : Nat) : Res (List Byte × List Byte) :=
  if k ≤ src.length then .ok (src.take k, src.drop k) else .error

/-! ### Files of vectors -/

/-- vector_io.h:15-22 `save_vector`. The result is the content of the file. The stream is not checked after writing. -/
def saveVector {α : Type} (hardened : Bool) (P : Pod α) (d : Disk) (v : List α) : Res (List Byte) := do
  Res.require d.canOpen
  addressOfFirst hardened v.length
  .ok (d.opened.write (P.encAll v)).close

/-- vector_io.h:24-38 `load_vector`; `none` is a file that cannot be opened. -/
def loadVector {α : Type} (hardened : Bool) (P : Pod α) (file : Option (List Byte)) : Res (List α) :=
  match file with
  | none => .error
  | some f => do
    Res.require (decide (f.length % P.size = 0))
    addressOfFirst hardened (f.length / P.size)
    .ok (P.decAll (f.length / P.size) f)

/-- vector_io.h:53-56 `save_value`. -/
def saveValue {α : Type} (hardened : Bool) (P : Pod α) (d : Disk) (x : α) : Res (List Byte) := saveVector hardened P d [x]

/-- vector_io.h:59-67 `load_value`. -/
def loadValue {α : Type} (hardened : Bool) (P : Pod α) (file : Option (List Byte)) : Res α := do
  let v ← loadVector hardened P file
  match v with
  | [] => .error
  | [x] => .ok x
  | _ => .error

/-- vector_io.cpp:8-11, the loop of `save_vector<std::string>`. A string is a list of bytes. -/
def saveStringsLoop (o : OStream) (v : List (List Byte)) : OStream := v.foldl (fun o s => o.write (s ++ [0])) o

/-- vector_io.cpp:6-12 `save_vector<std::string>`. The stream is not checked; if the file cannot be opened then the
function returns without effect (`none`). -/
def saveStrings (d : Disk) (v : List (List Byte)) : Res (Option (List Byte)) :=
  if d.canOpen then .ok (some (saveStringsLoop d.opened v).close) else .ok none

/-- vector_io.cpp:23-31, the loop of `load_vector<std::string>`: `cur` are the bytes from `str_begin` to `str_end`. -/
def splitStrings : List Byte → List Byte → List (List Byte) → List (List Byte)
  | [], _, ret => ret
  | b :: data, cur, ret => if b = 0 then splitStrings data [] (ret ++ [cur]) else splitStrings data (cur ++ [b]) ret

/-- vector_io.cpp:15-35 `load_vector<std::string>`. -/
def loadStrings (hardened : Bool) (file : Option (List Byte)) : Res (List (List Byte)) := do
  let data ← loadVector hardened podChar file
  .ok (splitStrings data [] [])

/-! ### Files of bit vectors -/

/-- The bytes of the first `k` blocks of 512 bits of a bit vector; `ub` if the array is shorter. -/
def blockBytes (v : BitVector) (k : Nat) : Res (List Byte) :=
  if k * 8 ≤ v.words.length then .ok (podWord.encAll (v.words.take (k * 8))) else .ub

/-- A bit vector with the first `k` blocks overwritten by the bytes `l`; `ub` if the array is shorter. -/
def overwriteBlocks (v : BitVector) (k : Nat) (l : List Byte) : Res BitVector :=
  if k * 8 ≤ v.words.length then .ok { v with data := v.data.map fun ws => podWord.decAll (k * 8) l ++ ws.drop (k * 8) } else .ub

/-- vector_io.cpp:37-44 `save_bit_vector`; the stream is not checked. -/
def saveBitVector (d : Disk) (v : BitVector) : Res (List Byte) := do
  Res.require d.canOpen
  let o := d.opened.write (podWord.enc (BitVec.ofNat 64 v.size))
  let l ← blockBytes v (BitVector.v8Count v.size)
  .ok (o.write l).close

/-- vector_io.cpp:46-61 `load_bit_vector`. The header is not checked to be complete: of a shorter file the missing bytes
of `size` are indeterminate (`junk`). The expression of line 56 has 64 bits. -/
def loadBitVector (junk : List Byte) (file : Option (List Byte)) : Res BitVector :=
  match file with
  | none => .error
  | some f => do
    let size := (podWord.dec ((f ++ junk).take 8)).toNat
    Res.require (decide ((BitVector.v8Count size * 64 + 8) % u64 = f.length))
    let v ← Res.ofOption (BitVector.new size false)
    overwriteBlocks v (BitVector.v8Count size) (f.drop 8)

/-! ### Values and vectors within streams -/

/-- vector_io.h:110-114, 124-128 (and 70-76, 88-95 for streams) `write_value`, `write_vector`: the bytes given to the
sink. -/
def writeVector {α : Type} (hardened : Bool) (P : Pod α) (v : List α) : Res (List Byte) := do
  addressOfFirst hardened v.length
  .ok (P.encAll v)

/-- vector_io.h:130-136 (and 97-105) `read_vector`. -/
def readVector {α : Type} (hardened : Bool) (P : Pod α) (src : List Byte) (n : Nat) : Res (List α × List Byte) := do
  addressOfFirst hardened n
  let (l, src) ← readBytes src (P.size * n)
  .ok (P.decAll n l, src)

/-- vector_io.h:141-146 `read_bit_vector`. -/
def readBitVector (src : List Byte) (n : Nat) : Res (BitVector × List Byte) := do
  let v ← Res.ofOption (BitVector.new n false)
  let (l, src) ← readBytes src (BitVector.v8Count n * 64)
  let v ← overwriteBlocks v (BitVector.v8Count n) l
  .ok (v, src)

/-- vector_io.h:148-151 `write_bit_vector`. -/
def writeBitVector (v : BitVector) : Res (List Byte) := blockBytes v (BitVector.v8Count v.size)

end RK
