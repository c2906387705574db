import Verif.Model.BitVectorHeap
import Verif.Spec.BitVector
import Verif.Spec.History
/-! # Specification: bit vectors as values, without pointers and blocks

A variable holds a bit vector or does not exist. Operations compute a new value from the old ones and store it in one variable; if they need memory and there is
none then nothing changes. Vectors without memory (`BitVector.null`: default constructed, moved from, or of size 0) hold no bits. -/
namespace Spec
open RK

abbrev Vars := Nat → Option BitVector

def Vars.set (f : Vars) (k : Nat) (v : Option BitVector) : Vars := fun j => if j = k then v else f j

/-- A new value that needs memory; `true` means that there was none. -/
def Vars.assign (f : Vars) (k : Nat) (r : BitVector) (ok : Bool) : Vars × Bool :=
  if r.data.isSome ∧ ok = false then (f, true) else (f.set k (some r), false)

/-- The meaning of the operations. -/
def Vars.step (f : Vars) (ok : Bool) : BVMemOp → Option (Vars × Bool)
  | .default k => do
    check (f k).isNone
    some (f.set k (some BitVector.null), false)
  | .create k n b => do
    check (f k).isNone
    let r ← BitVector.new n b
    some (f.assign k r ok)
  | .createUninit k n junk => do
    check (f k).isNone
    let r ← BitVector.newUninit n junk
    some (f.assign k r ok)
  | .copy k src => do
    check (f k).isNone
    let v ← f src
    let r ← v.copy
    some (f.assign k r ok)
  | .move k src => do
    check (f k).isNone
    let v ← f src
    v.assertPad
    some ((f.set src (some BitVector.null)).set k (some v), false)
  | .assign k src => do
    let _ ← f k
    let v ← f src
    let r ← v.copy
    some (f.assign k r ok)
  | .moveAssign k src => do
    let _ ← f k
    let v ← f src
    v.assertPad
    some ((f.set src (some BitVector.null)).set k (some v), false)
  | .swap k l => do
    let v ← f k
    let u ← f l
    u.assertPad
    v.assertPad
    some ((f.set l (some v)).set k (some u), false)
  | .resize k n b => do
    let v ← f k
    let r ← v.resize n b
    some (if keepsBlock v n then (f.set k (some r), false) else f.assign k r ok)
  | .resizeUninit k n junk => do
    let v ← f k
    let r ← v.resizeUninit n junk
    some (if keepsBlock v n then (f.set k (some r), false) else f.assign k r ok)
  | .update k u => do
    let v ← f k
    let r ← u.eval v
    some (f.set k (some r), false)
  | .combine k l c => do
    let v ← f k
    let u ← f l
    let r ← c.eval v u
    some (f.set k (some r), false)
  | .destroy k => do
    let _ ← f k
    some (f.set k none, false)

/-- One operation of a program, and whether memory is available. -/
def varsCall (f : Vars) (op : Bool × BVMemOp) : Option (Vars × Bool) := f.step op.1 op.2

/-- The memory is in order: every pointer leads to a block that is not freed, no two vectors share a block, and every block that is not freed belongs to a
vector. -/
structure MemoryOk (h : BVHeap) : Prop where
  valid : ∀ k o p, h.objs k = some o → o.ptr = some p → ∃ ws, h.blocks[p]? = some (some ws)
  unshared : ∀ k k' o o' p, h.objs k = some o → h.objs k' = some o' → o.ptr = some p → o'.ptr = some p → k = k'
  owned : ∀ p ws, h.blocks[p]? = some (some ws) → ∃ k o, h.objs k = some o ∧ o.ptr = some p

/-! ### The bits -/

/-- The variables that exist, and their bits. -/
abbrev BitVars := Nat → Option (List Bool)

def BitVars.set (f : BitVars) (k : Nat) (B : Option (List Bool)) : BitVars := fun j => if j = k then B else f j

/-- The bits after an update. -/
def updatedBits (B : List Bool) : BVUpdate → List Bool
  | .set x => B.set x true
  | .reset x => B.set x false
  | .toggle x => B.modify x (!·)
  | .setTo x b => B.set x b
  | .setIf x b => if b then B.set x true else B
  | .resetAll => List.replicate B.length false
  | .setAll => List.replicate B.length true
  | .setAllTo b => List.replicate B.length b
  | .inplaceNot => B.map (!·)

/-- The bits after `|=`, `^=`, `&=`. -/
def combinedBits (B C : List Bool) : BVCombine → List Bool
  | .or => List.zipWith (· || ·) B C
  | .xor => List.zipWith (· ^^ ·) B C
  | .and => List.zipWith (· && ·) B C

/-- What an operation means. -/
def BitMeaning (f : BitVars) (op : BVMemOp) (f' : BitVars) : Prop :=
  match op with
  | .default k => f' = f.set k (some [])
  | .create k n b => f' = f.set k (some (List.replicate n b))
  | .createUninit k n _ => ∃ B : List Bool, B.length = n ∧ f' = f.set k (some B)
  | .copy k src => f' = f.set k (f src)
  | .assign k src => f' = f.set k (f src)
  | .move k src => f' = (f.set src (some [])).set k (f src)
  | .moveAssign k src => f' = (f.set src (some [])).set k (f src)
  | .swap k l => f' = (f.set l (f k)).set k (f l)
  | .resize k n b => ∃ B, f k = some B ∧ f' = f.set k (some (B.take n ++ List.replicate (n - B.length) b))
  | .resizeUninit k n _ => ∃ B B', f k = some B ∧ B'.length = n ∧ (∀ x, x < n → x < B.length → B'[x]? = B[x]?) ∧ f' = f.set k (some B')
  | .update k u => ∃ B, f k = some B ∧ f' = f.set k (some (updatedBits B u))
  | .combine k l c => ∃ B C, f k = some B ∧ f l = some C ∧ f' = f.set k (some (combinedBits B C c))
  | .destroy k => f' = f.set k none

/-- Operations that may allocate memory. -/
def MayThrow : BVMemOp → Prop
  | .create .. | .createUninit .. | .copy .. | .assign .. | .resize .. | .resizeUninit .. => True
  | _ => False

/-- An operation throws, which only happens without memory, and changes nothing; or it does not throw and has its meaning. -/
def BitStep (f : BitVars) (op : Bool × BVMemOp) (threw : Bool) (f' : BitVars) : Prop :=
  (threw = true ∧ op.1 = false ∧ MayThrow op.2 ∧ f' = f) ∨ (threw = false ∧ BitMeaning f op.2 f')

/-- Documented preconditions: objects are constructed once and used while they exist, positions are in range, operands have the same size. `resize(n, true)` is
excluded where it is defective (C12). -/
def BitPre (f : BitVars) (op : Bool × BVMemOp) : Prop :=
  match op.2 with
  | .default k => f k = none
  | .create k n _ => f k = none ∧ n ≤ maxBits
  | .createUninit k n _ => f k = none ∧ n ≤ maxBits
  | .copy k src => f k = none ∧ f src ≠ none
  | .move k src => f k = none ∧ f src ≠ none
  | .assign k src => f k ≠ none ∧ f src ≠ none
  | .moveAssign k src => f k ≠ none ∧ f src ≠ none
  | .swap k l => f k ≠ none ∧ f l ≠ none
  | .resize k n b => n ≤ maxBits ∧ ∃ B, f k = some B ∧ (b = true → B.length ≤ n → B.length % 512 ≠ 0 ∧ n % 512 ≠ 0)
  | .resizeUninit k n _ => n ≤ maxBits ∧ f k ≠ none
  | .update k u => ∃ B, f k = some B ∧ (match u with
    | .set x | .reset x | .toggle x | .setTo x _ | .setIf x _ => x < B.length
    | .resetAll | .setAll | .setAllTo _ | .inplaceNot => True)
  | .combine k l _ => ∃ B C, f k = some B ∧ f l = some C ∧ B.length = C.length
  | .destroy k => f k ≠ none

end Spec
