import Verif.Basic
/-! Model of include/routingkit/bit_vector.h and src/bit_vector.cpp.

The array behind `data_` is a list of 64 bit words; `data = none` is the null pointer. The 512 bit SIMD
type `v8_uint64_t` is modelled lane by lane: a statement on the block `b` becomes the same statement on
the words `8*b .. 8*b+7` (the lanes are independent). Allocation failure (`std::bad_alloc`) is not
modelled. -/
namespace RK

abbrev Word := BitVec 64

/-- Number of one bits: `__builtin_popcountll` (emulate_gcc_builtin.h:12-18 for the emulation). -/
def popcount (w : Word) : Nat := (List.range 64).countP fun b => w.getLsbD b

/-- `2^64` -/
def u64 : Nat := 18446744073709551616

/-- bit_vector.h:118-119, the members. -/
structure BitVector where
  data : Option (List Word)
  size : Nat
deriving Repr, DecidableEq

namespace BitVector

/-- The words behind `data_`; the null pointer has none. -/
def words (v : BitVector) : List Word := v.data.getD []

/-- bit_vector.cpp:103-105 `get_v8_uint64_count`, with 64 bit wrap-around. -/
def v8Count (bitCount : Nat) : Nat := ((bitCount + 511) % u64) / 512

/-- bit_vector.cpp:107-109 `get_uint64_count`. -/
def u64Count (bitCount : Nat) : Nat := v8Count bitCount * 8

/-- bit_vector.cpp:120-125, the loop of `get_padding_mask` starting in lane `i`. -/
def padLoop : Nat → List Word → Nat → Nat → Option (List Word)
  | 0, _, _, _ => none
  | fuel + 1, u, i, x =>
    if x ≥ 64 then do
      let u ← wr u i (BitVec.allOnes 64)
      padLoop fuel u (i + 1) (x - 64)
    else if x ≠ 0 then
      wr u i ((1#64 <<< x) - 1#64)
    else some u

/-- bit_vector.cpp:115-128 `get_padding_mask`: the eight lanes. -/
def paddingMask (size : Nat) : Option (List Word) := padLoop 9 (List.replicate 8 0) 0 (size % 512)

/-- bit_vector.cpp:130-144 `is_any_bit_set`. -/
def isAnyBitSet (u : List Word) : Option Bool := do
  let u0 ← rd u 0
  let u1 ← rd u 1
  let u2 ← rd u 2
  let u3 ← rd u 3
  let u4 ← rd u 4
  let u5 ← rd u 5
  let u6 ← rd u 6
  let u7 ← rd u 7
  some ((((u0 ||| u1) ||| (u4 ||| u5)) ||| ((u2 ||| u3) ||| (u6 ||| u7))) != 0)

/-- bit_vector.cpp:146-160 `are_all_bits_set`. -/
def areAllBitsSet (u : List Word) : Option Bool := do
  let u0 ← rd u 0
  let u1 ← rd u 1
  let u2 ← rd u 2
  let u3 ← rd u 3
  let u4 ← rd u 4
  let u5 ← rd u 5
  let u6 ← rd u 6
  let u7 ← rd u 7
  some ((((u0 &&& u1) &&& (u4 &&& u5)) &&& ((u2 &&& u3) &&& (u6 &&& u7))) == BitVec.allOnes 64)

/-- Statement `*i = f(*i)` for every word of the range, the shape of all loops over blocks. -/
def mapWords (lo hi : Nat) (ws : List Word) (f : Nat → Word → Option Word) : Option (List Word) :=
  forRange lo hi ws fun ws i => (rd ws i).bind fun w => (f i w).bind fun w' => wr ws i w'

/-- Statement `x = f(x, *i)` for a SIMD accumulator `x` and every word of the range. -/
def foldLanes (lo hi : Nat) (acc : List Word) (f : Nat → Word → Option Word) : Option (List Word) :=
  forRange lo hi acc fun acc i =>
    (rd acc (i % 8)).bind fun a => (f i a).bind fun a' => wr acc (i % 8) a'

/-- bit_vector.cpp:163-171 `are_all_padding_bits_zero`. -/
def arePaddingZero (v : BitVector) : Option Bool :=
  if v.size % 512 = 0 then some true
  else do
    let mask ← paddingMask v.size
    let x ← mapWords 0 8 mask fun i m => (rd v.words (8 * (v.size / 512) + i)).map fun w => w &&& ~~~m
    let r ← isAnyBitSet x
    some (!r)

/-- `assert(are_all_padding_bits_zero(..))` -/
def assertPad (v : BitVector) : Option Unit := (arePaddingZero v).bind check

/-- bit_vector.cpp:175-176, the default constructor. -/
def null : BitVector := ⟨none, 0⟩

/-- bit_vector.cpp:276-283 `reset_all_padding_bits`. -/
def resetPadding (v : BitVector) : Option BitVector := do
  let v ← (if v.size % 512 ≠ 0 then do
      let mask ← paddingMask v.size
      let b := 8 * (v.size / 512)
      let ws ← mapWords b (b + 8) v.words fun i w => (rd mask (i - b)).map fun m => w &&& m
      some { v with data := some ws }
    else some v)
  assertPad v
  some v

/-- bit_vector.cpp:178-192, constructor without initialisation; `junk` is the indeterminate content of
the fresh array. -/
def newUninit (size : Nat) (junk : Nat → Word) : Option BitVector := do
  let v ← (if size ≠ 0 then
      resetPadding ⟨some ((List.range (u64Count size)).map junk), size⟩
    else some null)
  assertPad v
  some v

/-- bit_vector.cpp:194-224, constructor with initial value. -/
def new (size : Nat) (init : Bool) : Option BitVector := do
  let v ← (if size ≠ 0 then
      let v : BitVector :=
        ⟨some (List.replicate (u64Count size) (if init then BitVec.allOnes 64 else 0)), size⟩
      if init then resetPadding v else some v
    else some null)
  assertPad v
  some v

/-- bit_vector.cpp:230-245, the copy constructor. The copy never has a null `data_`. -/
def copy (o : BitVector) : Option BitVector := do
  assertPad o
  let ws ← mapWords 0 (u64Count o.size) (List.replicate (u64Count o.size) 0) fun i _ => rd o.words i
  let v : BitVector := ⟨some ws, o.size⟩
  assertPad v
  some v

/-- bit_vector.h:34-40 `is_set`. -/
def isSet (v : BitVector) (x : Nat) : Option Bool := do
  check (decide (x < v.size))
  let d ← rd v.words (x / 64)
  some ((d &&& (1#64 <<< (x % 64))) != 0)

/-- `(uint64_t)value` -/
def boolWord (b : Bool) : Word := if b then 1#64 else 0#64

/-- bit_vector.h:42-49 `set(x)`. -/
def set (v : BitVector) (x : Nat) : Option BitVector := do
  check (decide (x < v.size))
  let d ← rd v.words (x / 64)
  let d := d ||| (1#64 <<< (x % 64))
  let ws ← wr v.words (x / 64) d
  some { v with data := some ws }

/-- bit_vector.h:51-58 `set_if(x, value)`. -/
def setIf (v : BitVector) (x : Nat) (value : Bool) : Option BitVector := do
  check (decide (x < v.size))
  let d ← rd v.words (x / 64)
  let d := d ||| (boolWord value <<< (x % 64))
  let ws ← wr v.words (x / 64) d
  some { v with data := some ws }

/-- bit_vector.h:60-68 `set(x, value)`. -/
def setTo (v : BitVector) (x : Nat) (value : Bool) : Option BitVector := do
  check (decide (x < v.size))
  let d ← rd v.words (x / 64)
  let d := d &&& ~~~(1#64 <<< (x % 64))
  let d := d ||| (boolWord value <<< (x % 64))
  let ws ← wr v.words (x / 64) d
  some { v with data := some ws }

/-- bit_vector.h:70-77 `reset(x)`. -/
def reset (v : BitVector) (x : Nat) : Option BitVector := do
  check (decide (x < v.size))
  let d ← rd v.words (x / 64)
  let d := d &&& ~~~(1#64 <<< (x % 64))
  let ws ← wr v.words (x / 64) d
  some { v with data := some ws }

/-- bit_vector.h:79-86 `toggle(x)`. -/
def toggle (v : BitVector) (x : Nat) : Option BitVector := do
  check (decide (x < v.size))
  let d ← rd v.words (x / 64)
  let d := d ^^^ (1#64 <<< (x % 64))
  let ws ← wr v.words (x / 64) d
  some { v with data := some ws }

/-- `data_` after a loop that wrote `ws`; a null pointer stays null. -/
def withWords (v : BitVector) (ws : List Word) : BitVector := { v with data := v.data.map fun _ => ws }

/-- bit_vector.cpp:405-411 `set_all()`. -/
def setAll (v : BitVector) : Option BitVector := do
  let ws ← mapWords 0 (u64Count v.size) v.words fun _ _ => some (BitVec.allOnes 64)
  resetPadding (v.withWords ws)

/-- bit_vector.cpp:413-418 `reset_all()`. -/
def resetAll (v : BitVector) : Option BitVector := do
  let ws ← mapWords 0 (u64Count v.size) v.words fun _ _ => some 0
  let v := v.withWords ws
  assertPad v
  some v

/-- bit_vector.cpp:420-431 `set_all(value)`. -/
def setAllTo (v : BitVector) (value : Bool) : Option BitVector := do
  let x : Word := if value then BitVec.allOnes 64 else 0
  let ws ← mapWords 0 (u64Count v.size) v.words fun _ _ => some x
  let v := v.withWords ws
  let v ← if value then resetPadding v else some v
  assertPad v
  some v

/-- bit_vector.cpp:464-472 `operator|=`. -/
def orEq (v o : BitVector) : Option BitVector := do
  assertPad v
  assertPad o
  check (decide (v.size = o.size))
  let ws ← mapWords 0 (u64Count v.size) v.words fun i w => (rd o.words i).map fun u => w ||| u
  let v := v.withWords ws
  assertPad v
  some v

/-- bit_vector.cpp:474-482 `operator^=`. -/
def xorEq (v o : BitVector) : Option BitVector := do
  assertPad v
  assertPad o
  check (decide (v.size = o.size))
  let ws ← mapWords 0 (u64Count v.size) v.words fun i w => (rd o.words i).map fun u => w ^^^ u
  let v := v.withWords ws
  assertPad v
  some v

/-- bit_vector.cpp:484-492 `operator&=`. -/
def andEq (v o : BitVector) : Option BitVector := do
  assertPad v
  assertPad o
  check (decide (v.size = o.size))
  let ws ← mapWords 0 (u64Count v.size) v.words fun i w => (rd o.words i).map fun u => w &&& u
  let v := v.withWords ws
  assertPad v
  some v

/-- bit_vector.cpp:494-500 `inplace_not`. -/
def inplaceNot (v : BitVector) : Option BitVector := do
  assertPad v
  let ws ← mapWords 0 (u64Count v.size) v.words fun _ w => some (~~~w)
  let v ← resetPadding (v.withWords ws)
  assertPad v
  some v

/-- bit_vector.cpp:397-403 `population_count`. The sum cannot exceed the number of bits, so its 64 bit
wrap-around is not modelled. -/
def populationCount (v : BitVector) : Option Nat := do
  assertPad v
  forRange 0 (u64Count v.size) 0 fun n i => (rd v.words i).map fun w => n + popcount w

/-- bit_vector.h:98 `count_false`. -/
def countFalse (v : BitVector) : Option Nat := do
  let c ← populationCount v
  some (v.size - c)

/-- bit_vector.cpp:433-449 `are_all_set`. -/
def areAllSet (v : BitVector) : Option Bool := do
  assertPad v
  if v.size = 0 then some true
  else
    let n := v8Count v.size - 1
    let x ← foldLanes 0 (8 * n) (List.replicate 8 (BitVec.allOnes 64)) fun i a =>
      (rd v.words i).map fun w => a &&& w
    let mask ← paddingMask v.size
    let x ← foldLanes (8 * n) (8 * n + 8) x fun i a =>
      (rd v.words i).bind fun w => (rd mask (i % 8)).map fun m => a &&& (w ||| ~~~m)
    areAllBitsSet x

/-- bit_vector.cpp:451-462 `is_any_set`. -/
def isAnySet (v : BitVector) : Option Bool := do
  assertPad v
  if v.size = 0 then some false
  else
    let x ← foldLanes 0 (u64Count v.size) (List.replicate 8 0) fun i a =>
      (rd v.words i).map fun w => a ||| w
    isAnyBitSet x

/-- bit_vector.cpp:502-515 `operator==`. -/
def eq (l r : BitVector) : Option Bool := do
  assertPad l
  assertPad r
  if l.size ≠ r.size then some false
  else
    let x ← foldLanes 0 (u64Count l.size) (List.replicate 8 0) fun i a =>
      (rd l.words i).bind fun w => (rd r.words i).map fun u => a ||| (w ^^^ u)
    let b ← isAnyBitSet x
    some (!b)

/-- bit_vector.cpp:523-526, the loop of `operator<` from word `i`. -/
def ltLoop (l r : List Word) : Nat → Nat → Option Bool
  | 0, _ => some false
  | k + 1, i => do
    let a ← rd l i
    let b ← rd r i
    if a ≠ b then some (decide (a.toNat < b.toNat)) else ltLoop l r k (i + 1)

/-- bit_vector.cpp:517-527 `operator<`. -/
def lt (l r : BitVector) : Option Bool := do
  assertPad l
  assertPad r
  if l.size ≠ r.size then some (decide (l.size < r.size))
  else ltLoop l.words r.words (u64Count l.size) 0

/-- bit_vector.cpp:285-310 `resize(new_size, Uninitialized)`. -/
def resizeUninit (v : BitVector) (newSize : Nat) (junk : Nat → Word) : Option BitVector :=
  match v.data with
  | none => newUninit newSize junk
  | some ws => do
    assertPad v
    let v ← (if v8Count newSize = v8Count v.size then
        resetPadding { v with size := newSize }
      else do
        let o ← new newSize false
        let ws' ← mapWords 0 (8 * min (v8Count v.size) (v8Count newSize)) o.words
          fun i _ => rd ws i
        let o ← resetPadding (o.withWords ws')
        assertPad o
        some o)
    assertPad v
    some v

/-- bit_vector.cpp:312-367 `resize(new_size, value)`. -/
def resize (v : BitVector) (newSize : Nat) (value : Bool) : Option BitVector :=
  match v.data with
  | none => new newSize value
  | some ws => do
    assertPad v
    let v ← (if newSize < v.size then
        resizeUninit v newSize (fun _ => 0)
      else if v8Count newSize = v8Count v.size then
        if value = false then
          some { v with size := newSize }
        else do
          let m1 ← paddingMask newSize
          let m2 ← paddingMask v.size
          let b := 8 * (v.size / 512)
          let ws ← mapWords b (b + 8) ws fun i w =>
            (rd m1 (i - b)).bind fun x => (rd m2 (i - b)).map fun y => w ||| (x &&& ~~~y)
          some { data := some ws, size := newSize }
      else do
        let o ← new newSize false
        let j := 8 * v8Count v.size
        let ws' ← mapWords 0 j o.words fun i _ => rd ws i
        let o ← (if value then do
            check (decide (8 ≤ j))
            let m2 ← paddingMask v.size
            let ws' ← mapWords (j - 8) j ws' fun i w => (rd m2 (i - (j - 8))).map fun y => w ||| ~~~y
            let e := 8 * v8Count newSize
            let ws' ← mapWords j e ws' fun _ _ => some (BitVec.allOnes 64)
            let m1 ← paddingMask newSize
            let ws' ← mapWords (e - 8) e ws' fun i w => (rd m1 (i - (e - 8))).map fun y => w &&& y
            some (o.withWords ws')
          else do
            let ws' ← mapWords j (8 * v8Count newSize) ws' fun _ _ => some 0
            some (o.withWords ws'))
        assertPad o
        some o)
    assertPad v
    some v

/-- bit_vector.cpp:372-375, `n` is doubled until it exceeds `x`; does not terminate (`none`) if `x` is
at least 2^63, because `n` then becomes 0. -/
def doubleLoop : Nat → Nat → Nat → Option Nat
  | 0, _, _ => none
  | fuel + 1, n, x => if n ≤ x then doubleLoop fuel ((2 * n) % u64) x else some n

/-- bit_vector.cpp:369-380 `make_large_enough_for(x, Uninitialized)`. -/
def makeLargeEnoughForUninit (v : BitVector) (x : Nat) (junk : Nat → Word) : Option BitVector := do
  assertPad v
  let v ← (if v.size ≤ x then do
      let n ← doubleLoop 65 1 x
      resizeUninit v n junk
    else some v)
  assertPad v
  check (decide (v.size > x))
  some v

/-- bit_vector.cpp:382-394 `make_large_enough_for(x, init_value)`. -/
def makeLargeEnoughFor (v : BitVector) (x : Nat) (init : Bool) : Option BitVector := do
  assertPad v
  let v ← (if v.size ≤ x then do
      let n ← doubleLoop 65 1 x
      check (decide (n > x))
      resize v n init
    else some v)
  assertPad v
  check (decide (v.size > x))
  some v

/-- bit_vector.h:122-128 `make_bit_vector(size, f)`. -/
def make (size : Nat) (f : Nat → Bool) (junk : Nat → Word) : Option BitVector := do
  let v ← newUninit size junk
  forRange 0 size v fun v x => v.setTo x (f x)

end BitVector
end RK
