import Verif.Model.BitVector
/-! # Model of id_mapper.h, id_mapper.cpp and bit_select.cpp

A mapper keeps a pointer to the words of the bit vector it was built from; the model stores these words
(the mapped bit vector must outlive the mapper and not change). Counters of bits and blocks are `Nat`:
they are bounded by the number of bits, which fits into 64 bits. The 32-bit counters of the select
table construction are modelled with wrap-around. -/
namespace RK

/-- bit_select.cpp:14-40, one halving step of `uint64_bit_select` on (word, n, r). -/
def halve (k : Nat) (s : Word × Nat × Nat) : Word × Nat × Nat :=
  let lower := popcount (s.1 &&& ((1#64 <<< k) - 1#64))
  if lower ≤ s.2.1 then (s.1 >>> k, s.2.1 - lower, s.2.2 + k) else s

/-- bit_select.cpp:42-46, resets the lowest one bit `n` times. -/
def clearLow : Nat → Word → Word
  | 0, w => w
  | n + 1, w => clearLow n (w &&& (w - 1#64))

/-- `__builtin_ffsll`: one plus the index of the lowest one bit, 0 if there is none. -/
def ffsll (w : Word) : Nat :=
  match (List.range 64).find? fun b => w.getLsbD b with
  | some b => b + 1
  | none => 0

/-- bit_select.cpp:8-51 `uint64_bit_select`. -/
def select64 (word : Word) (n : Nat) : Option Nat := do
  check (n < popcount word)
  check (n < 64)
  let s := halve 32 (word, n, 0)
  check (s.2.1 < 32)
  let s := halve 16 s
  check (s.2.1 < 16)
  let s := halve 8 s
  check (s.2.1 < 8)
  let x := ffsll (clearLow s.2.1 s.1)
  check (x ≠ 0)
  some (s.2.2 + x - 1)

/-- bit_select.cpp:59-72, the loop of `uint512_bit_select`; `block` is the index of the current word in
`ws`, `i` counts the skipped words (the debug assertion). -/
def select512Loop (ws : List Word) : Nat → Nat → Nat → Nat → Nat → Option Nat
  | 0, _, _, _, _ => none
  | fuel + 1, block, i, n, r => do
    let w ← rd ws block
    let lower := popcount w
    if lower ≤ n then do
      check (i < 8)
      select512Loop ws fuel (block + 1) (i + 1) (n - lower) (r + 64)
    else do
      let x ← select64 w n
      some (r + x)

/-- bit_select.cpp:53-73 `uint512_bit_select`. The ninth skip violates the assertion, so nine rounds
of fuel suffice. -/
def select512 (ws : List Word) (block n : Nat) : Option Nat := select512Loop ws 9 block 0 n 0

/-- bit_select.cpp:83-86, the doubling loop; `o` is the offset of the pointer `uint512_rank`. -/
def gallop (rank : List Nat) (o count n : Nat) : Nat → Nat → Option Nat
  | 0, _ => none
  | fuel + 1, step => do
    if step < count then do
      let r ← rd rank (o + step)
      if r ≤ n then gallop rank o count n fuel (step * 2) else some step
    else some step

/-- bit_select.cpp:82-93, the outer loop: moves the pointers forward; returns the final offset. -/
def bitSelectLoop (rank : List Nat) (n : Nat) : Nat → Nat → Nat → Option Nat
  | 0, _, _ => none
  | fuel + 1, o, count => do
    let r1 ← rd rank (o + 1)
    if n < r1 then some o
    else do
      let step ← gallop rank o count n 65 1
      bitSelectLoop rank n fuel (o + step / 2) (count - step / 2)

/-- bit_select.cpp:77-99 `bit_select`, called with the pointers `rank_ + o` and `bits_ + 8*o`. Every
round of the loop moves at least one block or loops forever (then the fuel runs out). -/
def bitSelect (count : Nat) (rank : List Nat) (ws : List Word) (o n : Nat) : Option Nat := do
  check (count ≠ 0)
  let o' ← bitSelectLoop rank n (count + 1) o count
  let r0 ← rd rank o'
  check (r0 ≤ n)
  let x ← select512 ws (8 * o') (n - r0)
  some (x + (o' - o) * 512)

/-- id_mapper.h:42-44, the members of `LocalIDMapper`. -/
structure LocalIDMapper where
  bits : List Word
  bitCount : Nat
  rank : List Nat
deriving Repr

namespace LocalIDMapper

/-- id_mapper.cpp:13-45, constructor from a bit vector (id_mapper.h:18-20). The sum of eight popcounts
is written in the order of the code's additions being irrelevant. -/
def new (v : BitVector) : Option LocalIDMapper := do
  let blocks := (v.size + 511) / 512
  let (rank, s) ← forRange 0 blocks (List.replicate (blocks + 1) 0, 0) fun st j => do
    let rank ← wr st.1 j st.2
    let s ← forRange (8 * j) (8 * j + 8) st.2 fun s i => (rd v.words i).map fun w => s + popcount w
    some (rank, s)
  let rank ← wr rank blocks s
  some ⟨v.words, v.size, rank⟩

/-- id_mapper.h:17, default constructor. -/
def null : LocalIDMapper := ⟨[], 0, []⟩

/-- id_mapper.h:23-25 -/
def globalIdCount (m : LocalIDMapper) : Nat := m.bitCount

/-- id_mapper.h:27-32 -/
def localIdCount (m : LocalIDMapper) : Nat :=
  match m.rank.getLast? with
  | some r => r
  | none => 0

/-- id_mapper.h:34-37 -/
def isGlobalIdMapped (m : LocalIDMapper) (g : Nat) : Option Bool := do
  check (g < m.bitCount)
  let w ← rd m.bits (g / 64)
  some ((w &&& (1#64 <<< (g % 64))) != 0)

/-- id_mapper.cpp:73-83, 94-105, the common part of the two `to_local`. -/
def rankOf (m : LocalIDMapper) (g : Nat) : Option Nat := do
  let r ← rd m.rank (g / 512)
  let r ← forRange (g / 512 * 8) (g / 64) r fun r i => (rd m.bits i).map fun w => r + popcount w
  let w ← rd m.bits (g / 64)
  let r := r + popcount (w &&& ((1#64 <<< (g % 64)) - 1#64))
  check (r < m.localIdCount)
  some r

/-- id_mapper.cpp:60-84 `to_local(global_id, invalid)`. -/
def toLocalOr (m : LocalIDMapper) (g invalid : Nat) : Option Nat := do
  if g ≥ m.globalIdCount then some invalid
  else do
    let w ← rd m.bits (g / 64)
    if (w &&& (1#64 <<< (g % 64))) == 0 then some invalid
    else rankOf m g

/-- id_mapper.cpp:86-106 `to_local(global_id)`. -/
def toLocal (m : LocalIDMapper) (g : Nat) : Option Nat := do
  check (g < m.globalIdCount)
  let w ← rd m.bits (g / 64)
  check ((w &&& (1#64 <<< (g % 64))) != 0)
  rankOf m g

end LocalIDMapper

/-- id_mapper.h:47-62, `IDMapper`. -/
structure IDMapper where
  base : LocalIDMapper
  select : List Nat
deriving Repr

namespace IDMapper

/-- id_mapper.cpp:51-56, the inner loop for one block; the state is (select_, select_query,
select_value). -/
def fillLoop (rank : List Nat) (block : Nat) : Nat → (List Nat × Nat × Nat) → Option (List Nat × Nat × Nat)
  | 0, _ => none
  | fuel + 1, (sel, q, val) => do
    let lo ← rd rank block
    if lo ≤ val then do
      let hi ← rd rank (block + 1)
      if val < hi then do
        let sel ← wr sel q block
        let q := (q + 1) % u32
        fillLoop rank block fuel (sel, q, q * 256 % u32)
      else some (sel, q, val)
    else some (sel, q, val)

/-- id_mapper.cpp:47-58, constructor. A block holds at most 512 ones and hence at most two sampled
local ids (multiples of 256), so four rounds of fuel suffice. -/
def new (v : BitVector) : Option IDMapper := do
  let m ← LocalIDMapper.new v
  let sel := List.replicate ((m.localIdCount + 255) / 256) 0
  let s ← forRange 0 (m.rank.length - 1) (sel, 0, 0) fun s block => fillLoop m.rank block 4 s
  some ⟨m, s.1⟩

/-- id_mapper.cpp:108-126 `to_global`. -/
def toGlobal (m : IDMapper) (l : Nat) : Option Nat := do
  check (l < m.base.localIdCount)
  let start ← rd m.select (l / 256)
  let r ← rd m.base.rank start
  check (r ≤ l)
  let x ← bitSelect ((m.base.bitCount + 511) / 512 - start) m.base.rank m.base.bits start l
  let g := x + 512 * start
  let b ← m.base.isGlobalIdMapped g
  check b
  let l' ← m.base.toLocal g
  check (l' = l)
  some g

end IDMapper
end RK
