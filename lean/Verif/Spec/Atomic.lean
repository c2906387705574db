/-! # Threads that share memory: loads and compare and swap -/
namespace Spec

/-- What a thread wants to do next with the shared memory. -/
inductive MemAccess where
  | load (address : Nat)
  | cas (address expected desired : Nat)
deriving Repr, DecidableEq

/-- The program of the threads. `L` is everything that is private to a thread; `next = none` is the end of it. -/
structure Client (L : Type) where
  next : L → Option MemAccess
  loaded : L → Nat → L
  swapped : L → Bool → L

/-- The memory, and the private part of each thread. -/
structure Shared (L : Type) where
  mem : Nat → Nat
  loc : Nat → L

/-- Replace one value of a function. -/
def put {α : Type} (f : Nat → α) (i : Nat) (x : α) : Nat → α := fun j => if j = i then x else f j

/-- The builtin: a compare and swap is one step. -/
inductive AtomicStep {L : Type} (p : Client L) : Shared L → Shared L → Prop where
  | load {s : Shared L} (t a : Nat) : p.next (s.loc t) = some (.load a) →
      AtomicStep p s ⟨s.mem, put s.loc t (p.loaded (s.loc t) (s.mem a))⟩
  | success {s : Shared L} (t a e d : Nat) : p.next (s.loc t) = some (.cas a e d) → s.mem a = e →
      AtomicStep p s ⟨put s.mem a d, put s.loc t (p.swapped (s.loc t) true)⟩
  | failure {s : Shared L} (t a e d : Nat) : p.next (s.loc t) = some (.cas a e d) → s.mem a ≠ e →
      AtomicStep p s ⟨s.mem, put s.loc t (p.swapped (s.loc t) false)⟩

/-- Any number of steps. -/
inductive Steps {σ : Type} (step : σ → σ → Prop) : σ → σ → Prop where
  | refl (s : σ) : Steps step s s
  | snoc {s u v : σ} : Steps step s u → step u v → Steps step s v

/-- The number of one bits. -/
def oneBits {w : Nat} (x : BitVec w) : Nat := ((List.range w).filter fun k => x.getLsbD k).length

/-- `n` is the one-based number of the lowest one bit, zero if there is none. -/
def IsFfs (x : BitVec 64) (n : Nat) : Prop :=
  (n = 0 ∧ x = 0#64) ∨ ∃ k, n = k + 1 ∧ x.getLsbD k = true ∧ ∀ j, j < k → x.getLsbD j = false

end Spec
