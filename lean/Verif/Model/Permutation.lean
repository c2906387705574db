import Verif.Basic
/-!
# Model of `/repo/include/routingkit/permutation.h`

The rvalue overloads (lines 60-69, 84-93) move instead of copy the elements; they compute the same
result and are not modelled separately.
Failing `assert`s are modelled as `none`.
-/
namespace RK

/-- permutation.h:21-27, the loop of `is_permutation`; `n` is `p.size()`, `found` the bit array. -/
def isPermutationLoop (n : Nat) : List Nat → List Bool → Option Bool
  | [], _ => some true
  | x :: xs, found =>
    if n ≤ x then some false
    else do
      let b ← rd found x
      if b then some false
      else do
        let found ← wr found x true
        isPermutationLoop n xs found

/-- permutation.h:19-29 `is_permutation`. -/
def isPermutation (p : List Nat) : Option Bool :=
  isPermutationLoop p.length p (List.replicate p.length false)

/-- `assert(is_permutation(p))`. -/
def checkPerm (p : List Nat) : Option Unit := do
  let b ← isPermutation p
  check b

/-- permutation.h:32-40 `chain_permutation_first_left_then_right`. -/
def chainPermutation (p q : List Nat) : Option (List Nat) := do
  checkPerm p
  checkPerm q
  check (p.length == q.length)
  forRange 0 p.length (List.replicate p.length 0) fun r i => do
    let qi ← rd q i
    let pqi ← rd p qi
    wr r i pqi

/-- permutation.h:43-45 `chain_permutation_first_right_then_left`. -/
def chainPermutationRightThenLeft (p q : List Nat) : Option (List Nat) := chainPermutation q p

variable {α : Type}

/-- permutation.h:48-57 `apply_permutation`. The result vector is value-initialised (`default`). -/
def applyPermutation [Inhabited α] (p : List Nat) (v : List α) : Option (List α) := do
  checkPerm p
  check (p.length == v.length)
  forRange 0 v.length (List.replicate v.length default) fun r i => do
    let pi ← rd p i
    let x ← rd v pi
    wr r i x

/-- permutation.h:72-81 `apply_inverse_permutation`. -/
def applyInversePermutation [Inhabited α] (p : List Nat) (v : List α) : Option (List α) := do
  checkPerm p
  check (p.length == v.length)
  forRange 0 v.length (List.replicate v.length default) fun r i => do
    let pi ← rd p i
    let x ← rd v i
    wr r pi x

/-- permutation.h:96-102 `inplace_apply_permutation_to_elements_of`. -/
def inplaceApplyPermutationToElementsOf (p v : List Nat) : Option (List Nat) := do
  checkPerm p
  check (v.all fun x => decide (x < p.length))
  forRange 0 v.length v fun v i => do
    let vi ← rd v i
    let x ← rd p vi
    wr v i x

/-- permutation.h:105-112 `apply_permutation_to_elements_of`. -/
def applyPermutationToElementsOf (p v : List Nat) : Option (List Nat) := do
  checkPerm p
  check (v.all fun x => decide (x < p.length))
  inplaceApplyPermutationToElementsOf p v

/-- permutation.h:116-123 `inplace_apply_permutation_to_possibly_invalid_elements_of`. -/
def inplaceApplyPermutationToPossiblyInvalidElementsOf (p v : List Nat) : Option (List Nat) := do
  checkPerm p
  check (v.all fun x => decide (x < p.length) || x == invalidId)
  forRange 0 v.length v fun v i => do
    let vi ← rd v i
    if vi ≠ invalidId then do
      let x ← rd p vi
      wr v i x
    else some v

/-- permutation.h:126-133 `apply_permutation_to_possibly_invalid_elements_of`: note that the code
calls the variant that is *not* prepared for `invalid_id`. -/
def applyPermutationToPossiblyInvalidElementsOf (p v : List Nat) : Option (List Nat) := do
  checkPerm p
  check (v.all fun x => decide (x < p.length) || x == invalidId)
  inplaceApplyPermutationToElementsOf p v

/-- The same function as it behaves in a release build (`NDEBUG`), where the asserts of
permutation.h:127-128 and 97-98 are compiled out; only out-of-bounds reads remain. -/
def applyPermutationToPossiblyInvalidElementsOfRelease (p v : List Nat) : Option (List Nat) :=
  forRange 0 v.length v fun v i => do
    let vi ← rd v i
    let x ← rd p vi
    wr v i x

/-- permutation.h:137-145 `invert_permutation`. -/
def invertPermutation (p : List Nat) : Option (List Nat) := do
  checkPerm p
  forRange 0 p.length (List.replicate p.length 0) fun r i => do
    let pi ← rd p i
    wr r pi i

/-- permutation.h:148-153 `identity_permutation`. -/
def identityPermutation (n : Nat) : Option (List Nat) :=
  forRange 0 n (List.replicate n 0) fun r i => wr r i i

end RK
