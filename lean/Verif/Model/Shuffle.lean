import Verif.Model.Permutation
/-! # Model of random permutations: permutation.h:155-160 -/
namespace RK
variable {α : Type}

/-- `std::iter_swap` for two positions of a vector. -/
def swapAt (v : List α) (i j : Nat) : Option (List α) := do
  let a ← rd v i
  let b ← rd v j
  let v ← wr v i b
  wr v j a

/-- `std::shuffle` as in the common standard libraries (the standard only says that every order shall be equally likely): for each position behind the first,
the element is exchanged with the one at a random position up to it. `draw i`, a number from 0 to `i`, is what the distribution returns for position `i`. -/
def stdShuffle (v : List α) (draw : Nat → Nat) : Option (List α) :=
  forRange 1 v.length v fun v i => swapAt v i (draw i)

/-- permutation.h:155-160 `random_permutation`. -/
def randomPermutation (n : Nat) (draw : Nat → Nat) : Option (List Nat) := do
  let r ← identityPermutation n
  stdShuffle r draw

end RK
