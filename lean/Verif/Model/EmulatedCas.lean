import Verif.Spec.Atomic
/-! # The compare and swap of compilers without GCC extensions (emulate_gcc_builtin.h:34-50)

The steps of the function under all schedules, with sequentially consistent memory. One mutex is shared by all
variables of one type. The fences (lines 39 and 44) do nothing in this model. That a load without the mutex is a data
race of the language is not modelled here. -/
namespace RK
open Spec

/-- emulate_gcc_builtin.h:35-49: where a thread is within the function. -/
inductive CasPc where
  /-- not in the function -/
  | out
  /-- the mutex is held, line 41 is next -/
  | locked
  /-- the comparison in line 41 held, line 42 is next -/
  | matched
  /-- line 45 or 47: the result is determined, the destructor of the guard is next -/
  | leaving (result : Bool)
deriving Repr, DecidableEq

/-- emulate_gcc_builtin.h:36: the memory, the owner of the mutex, and for each thread its private part and position. -/
structure EmuState (L : Type) where
  mem : Nat → Nat
  owner : Option Nat
  loc : Nat → L
  pc : Nat → CasPc

/-- emulate_gcc_builtin.h:35-50 `emulated_sync_bool_compare_and_swap`: one step of thread `t`. -/
inductive EmuStep {L : Type} (p : Client L) (t : Nat) : EmuState L → EmuState L → Prop where
  /-- a load outside of the function -/
  | load {s : EmuState L} (a : Nat) : s.pc t = .out → p.next (s.loc t) = some (.load a) →
      EmuStep p t s ⟨s.mem, s.owner, put s.loc t (p.loaded (s.loc t) (s.mem a)), s.pc⟩
  /-- line 37: waits until the mutex is free -/
  | lock {s : EmuState L} (a e d : Nat) : s.pc t = .out → p.next (s.loc t) = some (.cas a e d) → s.owner = none →
      EmuStep p t s ⟨s.mem, some t, s.loc, put s.pc t .locked⟩
  /-- line 41, the values are equal -/
  | equal {s : EmuState L} (a e d : Nat) : s.pc t = .locked → p.next (s.loc t) = some (.cas a e d) → s.mem a = e →
      EmuStep p t s ⟨s.mem, s.owner, s.loc, put s.pc t .matched⟩
  /-- lines 41 and 47, the values differ -/
  | differ {s : EmuState L} (a e d : Nat) : s.pc t = .locked → p.next (s.loc t) = some (.cas a e d) → s.mem a ≠ e →
      EmuStep p t s ⟨s.mem, s.owner, s.loc, put s.pc t (.leaving false)⟩
  /-- lines 42 and 45 -/
  | store {s : EmuState L} (a e d : Nat) : s.pc t = .matched → p.next (s.loc t) = some (.cas a e d) →
      EmuStep p t s ⟨put s.mem a d, s.owner, s.loc, put s.pc t (.leaving true)⟩
  /-- the destructor of the guard of line 37, and the return -/
  | unlock {s : EmuState L} (b : Bool) : s.pc t = .leaving b →
      EmuStep p t s ⟨s.mem, none, put s.loc t (p.swapped (s.loc t) b), put s.pc t .out⟩

/-- A step of some thread. -/
def EmuStep.any {L : Type} (p : Client L) (s s' : EmuState L) : Prop := ∃ t, EmuStep p t s s'

/-- No thread is within the function. -/
def EmuState.quiet {L : Type} (s : Shared L) : EmuState L := ⟨s.mem, none, s.loc, fun _ => .out⟩

end RK
