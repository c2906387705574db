import Verif.Model.BitVector
/-! # The fallbacks for compilers without GCC extensions (emulate_gcc_builtin.h, bit_vector.cpp:49-100) -/
namespace RK

/-- emulate_gcc_builtin.h:14-17: the loop and the return. The loop ends when the one bit has been shifted out; running
out of fuel is `none`. `n` is at most 64, so the conversion of `int` to `unsigned` does not matter. -/
def popLoop (x : Word) : Nat → Word → Nat → Option Nat
  | 0, _, _ => none
  | fuel + 1, i, n =>
    if i ≠ 0#64 then popLoop x fuel (i <<< 1) (if x &&& i ≠ 0#64 then n + 1 else n)
    else some n

/-- emulate_gcc_builtin.h:11-18 `emulated_builtin_popcountll`. -/
def emulatedPopcountll (x : Word) : Option Nat := popLoop x 65 1#64 0

/-- emulate_gcc_builtin.h:20-23 `emulated_builtin_popcount`. -/
def emulatedPopcount (x : BitVec 32) : Option Nat := emulatedPopcountll (x.setWidth 64)

/-- emulate_gcc_builtin.h:28-31: the loop and the return. -/
def ffsLoop (x : Word) : Nat → Word → Nat → Option Nat
  | 0, _, _ => none
  | fuel + 1, i, n =>
    if i ≠ 0#64 then
      if x &&& i ≠ 0#64 then some n else ffsLoop x fuel (i <<< 1) (n + 1)
    else some 0

/-- emulate_gcc_builtin.h:25-32 `emulated_builtin_ffsll`. -/
def emulatedFfsll (x : Word) : Option Nat := ffsLoop x 65 1#64 1

/-! ### The structure that stands for a vector register

A value is the list of its eight words; an access outside of it is `none`. -/

/-- bit_vector.cpp:53-56: the constructor from a number. `junk` is what the memory contained. -/
def v8Of (junk : List Word) (x : BitVec 32) : Option (List Word) :=
  forRange 0 8 junk fun v i => wr v i (x.setWidth 64)

/-- bit_vector.cpp:59-62 `operator^=`. -/
def v8XorAssign (v o : List Word) : Option (List Word) :=
  forRange 0 8 v fun v i => do
    let a ← rd v i
    let b ← rd o i
    wr v i (a ^^^ b)

/-- bit_vector.cpp:64-67 `operator&=`. -/
def v8AndAssign (v o : List Word) : Option (List Word) :=
  forRange 0 8 v fun v i => do
    let a ← rd v i
    let b ← rd o i
    wr v i (a &&& b)

/-- bit_vector.cpp:69-72 `operator|=`. -/
def v8OrAssign (v o : List Word) : Option (List Word) :=
  forRange 0 8 v fun v i => do
    let a ← rd v i
    let b ← rd o i
    wr v i (a ||| b)

/-- bit_vector.cpp:74-79 `operator~`. The result is declared without initialization (line 51), `junk` is its content. -/
def v8Not (junk v : List Word) : Option (List Word) :=
  forRange 0 8 junk fun r i => do
    let a ← rd v i
    wr r i (~~~ a)

/-- bit_vector.cpp:81-82 `operator[]`. -/
def v8Get (v : List Word) (i : Nat) : Option Word := rd v i

/-- bit_vector.cpp:86-89 `operator^`; both arguments are copies. -/
def v8Xor (l r : List Word) : Option (List Word) := v8XorAssign l r

/-- bit_vector.cpp:91-94 `operator&`. -/
def v8And (l r : List Word) : Option (List Word) := v8AndAssign l r

/-- bit_vector.cpp:96-99 `operator|`. -/
def v8Or (l r : List Word) : Option (List Word) := v8OrAssign l r

end RK
