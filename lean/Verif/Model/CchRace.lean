import Verif.Model.CchParallel
/-!
# The accesses to shared memory of src/customizable_contraction_hierarchy.cpp, lines 807-835 and 916-935

Which weight the next step of a task of `Verif.Model.CchParallel` accesses and how, and the executions in which the plain loads of `atomic_min_to`
(lines 810 and 812) may return values that are out of date.
-/
namespace RK

/-- An access to `metric.forward[arc]` (`forward = true`) or `metric.backward[arc]`. -/
structure WeightAccess where
  forward : Bool
  arc : Nat
  writes : Bool
  atomic : Bool
deriving Repr, DecidableEq

/-- The access of the next step of a task. Lines 659-684 (`store`, `minStore`) and the loads of lines 810, 812, 827 and 828 are plain; only
`__sync_bool_compare_and_swap` of line 811 is atomic. It counts as a write even if it fails. -/
def Task.access (t : Task) : Option WeightAccess :=
  match t.prog, t.reg with
  | .store d a _ :: _, .start => some ⟨d, a, true, false⟩
  | .minStore d a _ :: _, .start => some ⟨d, a, false, false⟩
  | .minStore d a _ :: _, .seen => some ⟨d, a, true, false⟩
  | .relax d T :: _, .start => some ⟨!d, T.bottom, false, false⟩
  | .relax d T :: _, .loaded _ => some ⟨d, T.mid, false, false⟩
  | .relax d T :: _, .sum _ => some ⟨d, T.top, false, false⟩
  | .relax d T :: _, .cas _ _ => some ⟨d, T.top, true, true⟩
  | _, _ => none

/-- A parallel execution together with the values that every weight has had since the last barrier. -/
structure StalePool where
  pool : Pool
  old : Bool → Nat → List Nat

/-- Add the current values to those of the past. -/
def recordValues (m : Metric) (old : Bool → Nat → List Nat) : Bool → Nat → List Nat := fun d a =>
  match rd (m.side d) a with
  | some v => v :: old d a
  | none => old d a

/-- A step of an execution in which the loads of lines 810 and 812 may return any value which the weight has had since the barrier at the end of the last
loop. The value is loaded once per iteration of the loop of lines 811-812: a compiler that loads the same weight a second time is not modelled. No order
between the loads of one thread is assumed. -/
inductive StaleStep : StalePool → StalePool → Prop
  | task {m m' : Metric} {ts : List Task} {ph : List (List (List Instr))} {old : Bool → Nat → List Nat} (i : Nat) {t t' : Task} :
      rd ts i = some t → stepTask m t = some (m', t') →
      StaleStep ⟨⟨m, ts, ph⟩, old⟩ ⟨⟨m', ts.set i t', ph⟩, recordValues m old⟩
  | stale {m : Metric} {ts : List Task} {ph : List (List (List Instr))} {old : Bool → Nat → List Nat} (i : Nat) {d : Bool} {T : Tri}
      {p : List Instr} {y z : Nat} : rd ts i = some ⟨.relax d T :: p, .sum y⟩ → z ∈ old d T.top →
      StaleStep ⟨⟨m, ts, ph⟩, old⟩
        ⟨⟨m, ts.set i (if y < z then ⟨.relax d T :: p, .cas y z⟩ else ⟨p, .start⟩), ph⟩, old⟩
  | barrier {m : Metric} {ts : List Task} {p : List (List Instr)} {ph : List (List (List Instr))} {old : Bool → Nat → List Nat} :
      (∀ t ∈ ts, t.prog = []) → StaleStep ⟨⟨m, ts, p :: ph⟩, old⟩ ⟨⟨m, p.map fun q => ⟨q, .start⟩, ph⟩, fun _ _ => []⟩

/-- The states that can be reached. -/
inductive StaleReach (s : StalePool) : StalePool → Prop
  | refl : StaleReach s s
  | step {t u : StalePool} : StaleReach s t → StaleStep t u → StaleReach s u

/-- Lets the tasks of the list do their next access, one after the other; the number of the first task is 0. A barrier is `none`. -/
def Pool.run (s : Pool) : List (Option Nat) → Option Pool
  | [] => some s
  | none :: is =>
    match s.phases with
    | p :: ph => if s.tasks.all fun t => t.prog.isEmpty then Pool.run ⟨s.mem, p.map fun q => ⟨q, .start⟩, ph⟩ is else none
    | [] => none
  | some i :: is => do
    let t ← rd s.tasks i
    let (m, t') ← stepTask s.mem t
    Pool.run ⟨m, s.tasks.set i t', s.phases⟩ is

end RK
