import Verif.Model.VectorText
import Verif.Model.VectorIO
import Verif.Model.ChFile
/-!
# Model of the tools that generate vectors

`/repo/src/generate_random_node_list.cpp`, `/repo/src/generate_test_queries.cpp`, `/repo/src/generate_random_source_times.cpp`,
`/repo/src/generate_constant_vector.cpp`, and of `/repo/src/examine_ch.cpp`. The result is the vector that is saved; saving
is modelled in `Model/VectorIO`. The random numbers are a parameter.
-/
namespace RK

/-- `std::default_random_engine` (generate_random_node_list.cpp:37-38) with states `G`: the state for a seed, and a number of `uniform_int_distribution<int>(a, b)`
with the new state. -/
structure RandomInts (G : Type) where
  seed : Nat → G
  draw : Int → Int → G → Int × G

/-- generate_test_queries.cpp:24-26, generate_random_node_list.cpp:30-31, generate_random_source_times.cpp:30,
generate_constant_vector.cpp:23-24: `unsigned x = stoul(argument)`; an
`unsigned long` has 64 bits, the excess is cut off. -/
def argUnsigned (arg : Text) : Res Nat := do
  let x ← stoull arg
  .ok (x % u32)

/-- generate_random_node_list.cpp:25-29, generate_random_source_times.cpp:25-29: a number, or if it is none the size of the vector
in the file with this name. `file` is its content. -/
def argCount (hardened : Bool) (arg : Text) (file : Option (List Byte)) : Res Nat :=
  match argUnsigned arg with
  | .ok n => .ok n
  | .ub => .ub
  | .error => do
    let v ← loadVector hardened podUnsigned file
    .ok (v.length % u32)

/-- The conversion of `unsigned` to `int` (two's complement) in generate_random_node_list.cpp:38. -/
def unsignedToInt (x : Nat) : Int := if x < 2147483648 then (x : Int) else (x : Int) - 4294967296

/-- `uniform_int_distribution<int> dist(0, count-1)` (generate_random_node_list.cpp:38, generate_test_queries.cpp:37,
generate_random_source_times.cpp:38): the second argument. `count-1` is computed in 32 bits without sign and converted to `int`. The behaviour
is undefined if the result is negative. -/
def distributionUpTo (count : Nat) : Res Int :=
  let b := unsignedToInt ((count + 4294967295) % u32)
  Res.ofOption (if 0 ≤ b then some b else none)

/-- The conversion of `int` to `unsigned` in generate_random_node_list.cpp:41. -/
def intToUnsigned (x : Int) : Nat := (x % 4294967296).toNat

/-- The loop `for(auto&x:v) x = dist(gen)` (generate_random_node_list.cpp:40-41, generate_random_source_times.cpp:40-41). -/
def drawVector {G : Type} (R : RandomInts G) (b : Int) : Nat → G → List Nat
  | 0, _ => []
  | k + 1, g => intToUnsigned (R.draw 0 b g).1 :: drawVector R b k (R.draw 0 b g).2

/-- generate_random_node_list.cpp:25-41. -/
def toolRandomNodes {G : Type} (hardened : Bool) (R : RandomInts G) (nodeArg : Text) (nodeFile : Option (List Byte)) (countArg seedArg : Text) :
    Res (List Nat) := do
  let nodeCount ← argCount hardened nodeArg nodeFile
  let queryCount ← argUnsigned countArg
  let seed ← argUnsigned seedArg
  let b ← distributionUpTo nodeCount
  .ok (drawVector R b queryCount (R.seed seed))

/-- generate_test_queries.cpp:39-42: source and target are drawn in turn. -/
def drawPairs {G : Type} (R : RandomInts G) (b : Int) : Nat → G → List (Nat × Nat)
  | 0, _ => []
  | k + 1, g =>
    let s := R.draw 0 b g
    let t := R.draw 0 b s.2
    (intToUnsigned s.1, intToUnsigned t.1) :: drawPairs R b k t.2

/-- generate_test_queries.cpp:24-42: the sources and the targets. -/
def toolTestQueries {G : Type} (R : RandomInts G) (nodeArg countArg seedArg : Text) : Res (List Nat × List Nat) := do
  let nodeCount ← argUnsigned nodeArg
  let queryCount ← argUnsigned countArg
  let seed ← argUnsigned seedArg
  let b ← distributionUpTo nodeCount
  let pairs := drawPairs R b queryCount (R.seed seed)
  .ok (pairs.map Prod.fst, pairs.map Prod.snd)

/-- generate_random_source_times.cpp:25-41. -/
def toolRandomTimes {G : Type} (hardened : Bool) (R : RandomInts G) (countArg : Text) (countFile : Option (List Byte)) (seedArg : Text)
    (periodFile : Option (List Byte)) : Res (List Nat) := do
  let timeCount ← argCount hardened countArg countFile
  let seed ← argUnsigned seedArg
  let period ← loadValue hardened podUnsigned periodFile
  let b ← distributionUpTo period
  .ok (drawVector R b timeCount (R.seed seed))

/-- generate_constant_vector.cpp:23-30. -/
def toolConstantVector (sizeArg valueArg : Text) : Res (List Nat) := do
  let size ← argUnsigned sizeArg
  let value ← argUnsigned valueArg
  .ok (List.replicate size value)

/-- examine_ch.cpp:36-42: the three numbers that are printed. -/
def toolExamineCh (hardened : Bool) (file : Option (List Byte)) : Res (Nat × Nat × Nat) := do
  let ch ← loadCh hardened file
  .ok (ch.rank.length, ch.forward.head.length, ch.backward.head.length)

end RK
