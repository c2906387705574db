import Verif.Proof.GccBuiltin
/-! # Property theorems C98 (emulate_gcc_builtin.h, bit_vector.cpp:49-100) -/
namespace RK.Props
open RK _root_.Spec

/-- C98. The emulated `popcountll` counts the one bits. -/
theorem C98_popcountll (x : BitVec 64) : emulatedPopcountll x = some (oneBits x) := by
  have := popLoop_eq x 64 0 0 rfl
  rw [Nat.zero_add, ← List.range_eq_range'] at this
  exact this

/-- C98. The emulated `popcount` counts the one bits of a number of 32 bits. -/
theorem C98_popcount (x : BitVec 32) : emulatedPopcount x = some (oneBits x) := by
  unfold emulatedPopcount
  rw [C98_popcountll, oneBits_setWidth]

/-- C98. The emulated `ffsll` finds the lowest one bit. -/
theorem C98_ffsll (x : BitVec 64) : ∃ n, emulatedFfsll x = some n ∧ IsFfs x n :=
  ffsLoop_eq x 64 0 rfl (fun _ h => absurd h (Nat.not_lt_zero _))

example : emulatedPopcountll 0xF0F0000000000001#64 = some 9 ∧ emulatedPopcount 0xFFFFFFFF#32 = some 32 ∧
    emulatedFfsll 0x8000000000000000#64 = some 64 ∧ emulatedFfsll 0#64 = some 0 ∧ emulatedFfsll 0x60#64 = some 6 := by
  decide

/-- C98. The structure in place of a vector register of eight words: the operators act on each word, whatever the
memory of the result contained. -/
theorem C98_vector_register (v o junk : List (BitVec 64)) (hv : v.length = 8) (ho : o.length = 8) (hj : junk.length = 8)
    (x : BitVec 32) :
    v8Of junk x = some (List.replicate 8 (x.setWidth 64)) ∧
    v8XorAssign v o = some (List.zipWith (· ^^^ ·) v o) ∧ v8Xor v o = some (List.zipWith (· ^^^ ·) v o) ∧
    v8AndAssign v o = some (List.zipWith (· &&& ·) v o) ∧ v8And v o = some (List.zipWith (· &&& ·) v o) ∧
    v8OrAssign v o = some (List.zipWith (· ||| ·) v o) ∧ v8Or v o = some (List.zipWith (· ||| ·) v o) ∧
    v8Not junk v = some (v.map (~~~ ·)) ∧ ∀ i, v8Get v i = v[i]? := by
  obtain ⟨a0, a1, a2, a3, a4, a5, a6, a7, rfl⟩ := eight hv
  obtain ⟨b0, b1, b2, b3, b4, b5, b6, b7, rfl⟩ := eight ho
  obtain ⟨c0, c1, c2, c3, c4, c5, c6, c7, rfl⟩ := eight hj
  exact ⟨rfl, rfl, rfl, rfl, rfl, rfl, rfl, rfl, fun _ => rfl⟩

example : v8And (List.replicate 8 5#64) (List.replicate 8 12#64) = some (List.replicate 8 4#64) := by decide

/-- C98. Whatever the threads do with loads and emulated compare and swap, and however their steps are interleaved:
the memory and the private parts of all threads that are not within a compare and swap are those of an execution in
which every compare and swap is one indivisible step. -/
theorem C98_cas_is_atomic {L : Type} (p : Client L) (start : Shared L) (e : EmuState L)
    (h : Steps (EmuStep.any p) (.quiet start) e) :
    ∃ s, Steps (AtomicStep p) start s ∧ s.mem = e.mem ∧ ∀ t, e.pc t = .out → s.loc t = e.loc t := by
  refine ⟨_, (emu_run h).2, rfl, fun t ht => ?_⟩
  show (e.pc t).abs p (e.loc t) = e.loc t
  rw [ht]
  rfl

/-- C98. Conversely every execution with indivisible steps is possible. -/
theorem C98_cas_loses_nothing {L : Type} (p : Client L) (start s : Shared L) (h : Steps (AtomicStep p) start s) :
    Steps (EmuStep.any p) (.quiet start) (.quiet s) := by
  induction h with
  | refl => exact .refl _
  | snoc _ hs ih => exact steps_trans ih (atomic_emu hs)

/-- C98. There is no deadlock: while a thread is not at its end, it or the owner of the mutex can take a step. -/
theorem C98_cas_no_deadlock {L : Type} (p : Client L) (start : Shared L) (e : EmuState L)
    (h : Steps (EmuStep.any p) (.quiet start) e) (t : Nat) (ht : e.pc t ≠ .out ∨ p.next (e.loc t) ≠ none) :
    ∃ t' e', (t' = t ∨ e.owner = some t') ∧ EmuStep p t' e e' :=
  (emu_run h).1.progress t ht

/-- At most one thread is within the function beyond the acquisition of the mutex. -/
theorem C98_cas_exclusive {L : Type} (p : Client L) (start : Shared L) (e : EmuState L)
    (h : Steps (EmuStep.any p) (.quiet start) e) (t t' : Nat) (ht : e.pc t ≠ .out) (ht' : e.pc t' ≠ .out) : t = t' := by
  have h1 := ((emu_run h).1.owner t).1 ht
  have h2 := ((emu_run h).1.owner t').1 ht'
  exact Option.some.inj (h1.symm.trans h2)

/-- The loop of customizable_contraction_hierarchy.cpp:809-812 as a client: the private part is the value `y` to be
stored and the last value seen, `none` before the first load and after a failure; `(y, none)` loads, `(y, some z)` with
`y < z` tries to swap, and otherwise the thread is at its end. -/
private def atomicMinClient : Client (Nat × Option Nat) where
  next l := match l.2 with
    | none => some (.load 0)
    | some z => if l.1 < z then some (.cas 0 z l.1) else none
  loaded l v := (l.1, some v)
  swapped l b := (l.1, if b then some l.1 else none)

/-- Thread 0 wants to store 3 and thread 1 wants to store 4 where 9 is stored. Both see 9, thread 1 waits for the mutex
of thread 0 and fails then. -/
example : ∃ e, Steps (EmuStep.any atomicMinClient) (.quiet ⟨fun _ => 9, fun t => (t + 3, none)⟩) e ∧
    e.mem 0 = 3 ∧ e.pc 1 = .leaving false ∧ e.owner = some 1 := by
  refine ⟨_, .snoc (.snoc (.snoc (.snoc (.snoc (.snoc (.snoc (.snoc (.refl _)
    ⟨0, .load 0 rfl rfl⟩) ⟨1, .load 0 rfl rfl⟩) ⟨0, .lock 0 9 3 rfl rfl rfl⟩) ⟨0, .equal 0 9 3 rfl rfl rfl⟩)
    ⟨0, .store 0 9 3 rfl rfl⟩) ⟨0, .unlock true rfl⟩) ⟨1, .lock 0 9 4 rfl rfl rfl⟩)
    ⟨1, .differ 0 9 4 rfl rfl (by decide)⟩, rfl, rfl, rfl⟩

end RK.Props
