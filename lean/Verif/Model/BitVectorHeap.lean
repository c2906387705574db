import Verif.Model.BitVector
/-!
# Model of the memory of bit vectors: src/bit_vector.cpp, lines 175-310 and the declarations in bit_vector.h

`Model/BitVector` treats a vector as a value. Here the vectors are objects with a pointer to a block of memory from `aligned_alloc`, which may fail;
blocks are allocated and freed where the code does so. What an operation computes is taken from `Model/BitVector`. `none` is undefined behaviour: a freed or
null block is used, a block is freed twice, an `assert` fails, or an object is used that does not exist.
-/
namespace RK

/-- bit_vector.h:118-119, the members; `ptr` is the number of the block behind `data_`. -/
structure BVObj where
  ptr : Option Nat
  size : Nat
deriving Repr, DecidableEq

/-- The memory: the blocks in the order of their allocation (`none` is a block that was freed), and the bit vectors that exist. -/
structure BVHeap where
  blocks : List (Option (List Word))
  objs : Nat → Option BVObj

/-- No block was allocated and there is no bit vector. -/
def BVHeap.empty : BVHeap := ⟨[], fun _ => none⟩

/-- What is behind a pointer. -/
def loadVec (blocks : List (Option (List Word))) (o : BVObj) : Option BitVector :=
  match o.ptr with
  | none => some ⟨none, o.size⟩
  | some p => do
    let b ← rd blocks p
    let ws ← b
    some ⟨some ws, o.size⟩

/-- bit_vector.cpp:226-228 the destructor, `aligned_free(data_)`; freeing the null pointer does nothing. -/
def freeBlock (blocks : List (Option (List Word))) : Option Nat → Option (List (Option (List Word)))
  | none => some blocks
  | some p => do
    let b ← rd blocks p
    let _ ← b
    wr blocks p none

/-- The content of an object. -/
def BVHeap.get (h : BVHeap) (k : Nat) : Option BitVector := do
  let o ← h.objs k
  loadVec h.blocks o

/-- Replace or remove an object. -/
def setObj (f : Nat → Option BVObj) (k : Nat) (o : Option BVObj) : Nat → Option BVObj := fun j => if j = k then o else f j

/-- The pointer of an object, if there is one. -/
def ptrOf (o : Option BVObj) : Option Nat := o.bind BVObj.ptr

/-- A new vector with the content `r` is constructed and takes the place of object `k`: lines 178-245 for a new object, lines 257-262 (`operator=`: the argument
is exchanged with the object and destroyed at the end) and lines 287, 295-307, 314 and 327-363 (`resize`) for an existing one. `ok` tells whether `aligned_alloc`
succeeds; if not then `std::bad_alloc` is thrown (`true`) before anything is changed. -/
def BVHeap.install (h : BVHeap) (k : Nat) (r : BitVector) (ok : Bool) : Option (BVHeap × Bool) :=
  match r.data with
  | none => do
    let blocks ← freeBlock h.blocks (ptrOf (h.objs k))
    some (⟨blocks, setObj h.objs k (some ⟨none, r.size⟩)⟩, false)
  | some ws =>
    if ok then do
      let blocks ← freeBlock (h.blocks ++ [some ws]) (ptrOf (h.objs k))
      some (⟨blocks, setObj h.objs k (some ⟨some h.blocks.length, r.size⟩)⟩, false)
    else some (h, true)

/-- Bytes and size of an existing object are overwritten. -/
def BVHeap.store (h : BVHeap) (k : Nat) (r : BitVector) : Option BVHeap := do
  let o ← h.objs k
  match o.ptr, r.data with
  | none, none => some ⟨h.blocks, setObj h.objs k (some ⟨none, r.size⟩)⟩
  | some p, some ws => do
    let b ← rd h.blocks p
    let _ ← b
    let blocks ← wr h.blocks p (some ws)
    some ⟨blocks, setObj h.objs k (some ⟨some p, r.size⟩)⟩
  | _, _ => none

/-- The functions that change bits of one vector. -/
inductive BVUpdate where
  | set (x : Nat)
  | reset (x : Nat)
  | toggle (x : Nat)
  | setTo (x : Nat) (value : Bool)
  | setIf (x : Nat) (value : Bool)
  | resetAll
  | setAll
  | setAllTo (value : Bool)
  | inplaceNot
deriving Repr, DecidableEq

/-- bit_vector.h:42-86, bit_vector.cpp:405-431 and 494-500. -/
def BVUpdate.eval (v : BitVector) : BVUpdate → Option BitVector
  | .set x => v.set x
  | .reset x => v.reset x
  | .toggle x => v.toggle x
  | .setTo x b => v.setTo x b
  | .setIf x b => v.setIf x b
  | .resetAll => v.resetAll
  | .setAll => v.setAll
  | .setAllTo b => v.setAllTo b
  | .inplaceNot => v.inplaceNot

/-- `|=`, `^=`, `&=` -/
inductive BVCombine where
  | or
  | xor
  | and
deriving Repr, DecidableEq

/-- bit_vector.cpp:464-492. -/
def BVCombine.eval (v o : BitVector) : BVCombine → Option BitVector
  | .or => v.orEq o
  | .xor => v.xorEq o
  | .and => v.andEq o

/-- What a program may do with bit vectors; the objects have numbers. -/
inductive BVMemOp where
  | default (k : Nat)
  | create (k size : Nat) (value : Bool)
  | createUninit (k size : Nat) (junk : Nat → Word)
  | copy (k src : Nat)
  | move (k src : Nat)
  | assign (k src : Nat)
  | moveAssign (k src : Nat)
  | swap (k l : Nat)
  | resize (k size : Nat) (value : Bool)
  | resizeUninit (k size : Nat) (junk : Nat → Word)
  | update (k : Nat) (u : BVUpdate)
  | combine (k l : Nat) (c : BVCombine)
  | destroy (k : Nat)

/-- Resizing keeps the block: lines 291-293 and 319-325. -/
def keepsBlock (v : BitVector) (size : Nat) : Bool := v.data.isSome && decide (BitVector.v8Count size = BitVector.v8Count v.size)

/-- An operation on the memory; the second part of the result tells whether `std::bad_alloc` was thrown. -/
def BVHeap.step (h : BVHeap) (ok : Bool) : BVMemOp → Option (BVHeap × Bool)
  | .default k => do
    check (h.objs k).isNone
    h.install k BitVector.null ok
  | .create k n b => do
    check (h.objs k).isNone
    let r ← BitVector.new n b
    h.install k r ok
  | .createUninit k n junk => do
    check (h.objs k).isNone
    let r ← BitVector.newUninit n junk
    h.install k r ok
  | .copy k src => do
    check (h.objs k).isNone
    let v ← h.get src
    let r ← v.copy
    h.install k r ok
  -- lines 247-255
  | .move k src => do
    check (h.objs k).isNone
    let v ← h.get src
    v.assertPad
    let o ← h.objs src
    some (⟨h.blocks, setObj (setObj h.objs src (some ⟨none, 0⟩)) k (some o)⟩, false)
  -- lines 257-262
  | .assign k src => do
    let _ ← h.objs k
    let v ← h.get src
    let r ← v.copy
    h.install k r ok
  -- lines 257-262 with a moved argument: the argument `o` takes the block of `src`, is exchanged with `k`, and is destroyed
  | .moveAssign k src => do
    let _ ← h.objs k
    let v ← h.get src
    v.assertPad
    let o ← h.objs src
    let objs := setObj h.objs src (some ⟨none, 0⟩)
    let blocks ← freeBlock h.blocks (ptrOf (objs k))
    some (⟨blocks, setObj objs k (some o)⟩, false)
  -- lines 264-274
  | .swap k l => do
    let v ← h.get k
    let u ← h.get l
    u.assertPad
    v.assertPad
    let a ← h.objs k
    let b ← h.objs l
    some (⟨h.blocks, setObj (setObj h.objs l (some a)) k (some b)⟩, false)
  -- lines 312-367
  | .resize k n b => do
    let v ← h.get k
    let r ← v.resize n b
    if keepsBlock v n then do
      let h ← h.store k r
      some (h, false)
    else h.install k r ok
  -- lines 285-310
  | .resizeUninit k n junk => do
    let v ← h.get k
    let r ← v.resizeUninit n junk
    if keepsBlock v n then do
      let h ← h.store k r
      some (h, false)
    else h.install k r ok
  | .update k u => do
    let v ← h.get k
    let r ← u.eval v
    let h ← h.store k r
    some (h, false)
  | .combine k l c => do
    let v ← h.get k
    let u ← h.get l
    let r ← c.eval v u
    let h ← h.store k r
    some (h, false)
  | .destroy k => do
    let o ← h.objs k
    let blocks ← freeBlock h.blocks o.ptr
    some (⟨blocks, setObj h.objs k none⟩, false)

/-- One operation of a program, and whether `aligned_alloc` succeeds if it is called. -/
def memCall (h : BVHeap) (op : Bool × BVMemOp) : Option (BVHeap × Bool) := h.step op.1 op.2

end RK
