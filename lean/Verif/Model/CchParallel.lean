import Verif.Model.CchMetric
import Verif.Model.Sort
import Verif.Model.InverseVector
/-!
# Model of src/customizable_contraction_hierarchy.cpp, lines 807-945: parallel customization

The loops marked `#pragma omp for` distribute their iterations over the threads; all threads wait at the end of each
such loop. In the model every iteration is a task of its own and a step of the execution lets *any* unfinished task
do its next memory access. This includes all assignments of iterations to threads, all thread counts and all
interleavings. Memory accesses to single weights are assumed to be atomic and sequentially consistent; the C++ code
reads the weights with plain loads while other threads may modify them with compare-and-swap.
-/
namespace RK

/-! ### The levels of the nodes -/

/-- C++ subtraction of two `unsigned` values. -/
def sub32 (a b : Nat) : Nat := (a + u32 - b) % u32

/-- `list[count] = x; ++count` for a vector of `n` elements of which only the first `count` are used. -/
def pushBounded (n : Nat) (l : List Nat) (x : Nat) : Option (List Nat) :=
  if l.length < n then some (l ++ [x]) else none

/-- Lines 846-850 and 862-866: store the new value of the lock of `x`; append `x` to the list if it is zero. -/
def setLock (n : Nat) (s : List Nat × List Nat) (x k : Nat) : Option (List Nat × List Nat) := do
  let lock ← wr s.1 x k
  if k = 0 then do
    let z ← pushBounded n s.2 x
    some (lock, z)
  else some (lock, s.2)

/-- Lines 845-851, loop body; the state is (`lock`, `zero_lock_list`). -/
def initLock (c : Cch) (n : Nat) (s : List Nat × List Nat) (x : Nat) : Option (List Nat × List Nat) := do
  let e ← rd c.downFirstOut (x + 1)
  let b ← rd c.downFirstOut x
  setLock n s x (sub32 e b)

/-- Lines 860-867, loop body; the state is (`lock`, `next_zero_lock_list`). -/
def unlockArc (c : Cch) (n : Nat) (s : List Nat × List Nat) (xy : Nat) : Option (List Nat × List Nat) := do
  let y ← rd c.upHead xy
  let l ← rd s.1 y
  setLock n s y (sub32 l 1)

/-- `lock`, `node_level` and `next_zero_lock_list`. -/
structure LevelState where
  lock : List Nat
  level : List Nat
  next : List Nat

/-- Lines 857-868, loop body for node `x`. -/
def levelNode (c : Cch) (n l : Nat) (s : LevelState) (x : Nat) : Option LevelState := do
  let level ← wr s.level x l
  let b ← rd c.upFirstOut x
  let e ← rd c.upFirstOut (x + 1)
  let (lock, next) ← forRange b e (s.lock, s.next) (unlockArc c n)
  some ⟨lock, level, next⟩

/-- Lines 855-872, the while loop; returns (`node_level`, `level_count`). -/
def levelLoop (c : Cch) (n : Nat) : Nat → List Nat → List Nat → List Nat → Nat → Option (List Nat × Nat)
  | 0, _, _, _, _ => none
  | fuel + 1, lock, level, zero, l =>
    if zero.length ≠ 0 then do
      let s ← forEach zero ⟨lock, level, []⟩ (levelNode c n l)
      levelLoop c n fuel s.lock s.level s.next (l + 1)
    else some (level, l)

/-- Lines 837-873. There are at most as many rounds as nodes. -/
def computeLevels (c : Cch) : Option (List Nat × Nat) := do
  let n := c.nodeCount
  let (lock, zero) ← forRange 0 n (List.replicate n 0, []) (initLock c n)
  levelLoop c n (n + 1) lock (List.replicate n 0) zero 0

/-- customizable_contraction_hierarchy.h:104-105, the members. -/
structure Parallelization where
  firstArcOfLevel : List Nat
  arcsByLevel : List Nat
deriving Repr, DecidableEq

/-- Lines 885-889, loop body; the state is (`j`, `arc_level`, `arcs_ordered_by_level`). -/
def placeArc (l : Nat) (s : Nat × List Nat × List Nat) (xy : Nat) : Option (Nat × List Nat × List Nat) := do
  let al ← wr s.2.1 s.1 l
  let ao ← wr s.2.2 s.1 xy
  some (s.1 + 1, al, ao)

/-- Lines 883-890, loop body. `node_level[x]` is read once instead of once per arc. -/
def placeNode (c : Cch) (level : List Nat) (p : List Nat) (s : Nat × List Nat × List Nat) (i : Nat) :
    Option (Nat × List Nat × List Nat) := do
  let x ← rd p i
  let b ← rd c.upFirstOut x
  let e ← rd c.upFirstOut (x + 1)
  let l ← rd level x
  forRange b e s (placeArc l)

/-- customizable_contraction_hierarchy.cpp:836-895, the constructor. -/
def Parallelization.new (c : Cch) : Option Parallelization := do
  let (level, levelCount) ← computeLevels c
  let m := c.cchArcCount
  let p ← computeStableSortPermutationUsingKey level levelCount (fun x => x)
  let (_, al, ao) ← forRange 0 c.nodeCount (0, List.replicate m 0, List.replicate m 0) (placeNode c level p)
  let fo ← invertVector al levelCount
  some ⟨fo, ao⟩

/-! ### Concurrent execution -/

/-- The accesses to shared memory of the two parallel loops. The flag selects `metric.forward` (`true`) or
`metric.backward` (`false`). -/
inductive Instr
  /-- `metric[a] = v` -/
  | store (d : Bool) (a v : Nat)
  /-- `min_to(metric[a], v)` -/
  | minStore (d : Bool) (a v : Nat)
  /-- `atomic_min_to(metric[top], opposite metric[bottom] + metric[mid])`, lines 827-828 -/
  | relax (d : Bool) (t : Tri)
deriving Repr, DecidableEq

/-- How far the current instruction has been executed. -/
inductive Reg
  | start
  /-- `minStore`: a larger value was read, the store follows -/
  | seen
  /-- `relax`: the first summand was read -/
  | loaded (u : Nat)
  /-- `relax`: both summands were read; the weight of the top arc is read next (lines 810 and 812) -/
  | sum (y : Nat)
  /-- `relax`: `z` was read and `y < z`; the compare-and-swap follows (line 811) -/
  | cas (y z : Nat)
deriving Repr, DecidableEq

/-- An iteration of a parallel loop: the instructions that are left and the progress of the first. -/
structure Task where
  prog : List Instr
  reg : Reg
deriving Repr, DecidableEq

/-- The weights of one direction. -/
def Metric.side (m : Metric) (d : Bool) : List Nat := if d then m.forward else m.backward

/-- Write a weight of one direction. -/
def Metric.wrSide (m : Metric) (d : Bool) (a v : Nat) : Option Metric := do
  let s ← wr (m.side d) a v
  some (if d then ⟨s, m.backward⟩ else ⟨m.forward, s⟩)

/-- The next memory access of a task. `none` for a finished task and for accesses out of bounds. -/
def stepTask (m : Metric) (t : Task) : Option (Metric × Task) :=
  match t.prog, t.reg with
  | .store d a v :: p, .start => do
    let m ← m.wrSide d a v
    some (m, ⟨p, .start⟩)
  | .minStore d a v :: p, .start => do
    let x ← rd (m.side d) a
    some (m, if v < x then ⟨.minStore d a v :: p, .seen⟩ else ⟨p, .start⟩)
  | .minStore d a v :: p, .seen => do
    let m ← m.wrSide d a v
    some (m, ⟨p, .start⟩)
  | .relax d t :: p, .start => do
    let u ← rd (m.side (!d)) t.bottom
    some (m, ⟨.relax d t :: p, .loaded u⟩)
  | .relax d t :: p, .loaded u => do
    let v ← rd (m.side d) t.mid
    some (m, ⟨.relax d t :: p, .sum (add32 u v)⟩)
  | .relax d t :: p, .sum y => do
    let z ← rd (m.side d) t.top
    some (m, if y < z then ⟨.relax d t :: p, .cas y z⟩ else ⟨p, .start⟩)
  | .relax d t :: p, .cas y z => do
    let x ← rd (m.side d) t.top
    if x = z then do
      let m ← m.wrSide d t.top y
      some (m, ⟨p, .start⟩)
    else some (m, ⟨.relax d t :: p, .sum y⟩)
  | _, _ => none

/-- Lines 676-681: the instructions for the further input arcs. -/
def extraProg (w fo extra : List Nat) (i a : Nat) (d : Bool) : Option (List Instr) := do
  let lo ← rd fo i
  let hi ← rd fo (i + 1)
  (List.range' lo (hi - lo)).mapM fun j => do
    let e ← rd extra j
    let x ← rd w e
    some (.minStore d a x)

/-- Lines 659-684 `extract_initial_metric_of_cch_arc` as a list of accesses to shared memory. The hierarchy and the
input weights are not modified, so reading them ahead makes no difference. -/
def extractProg (c : Cch) (w : List Nat) (a : Nat) : Option (List Instr) := do
  let has ← c.hasInput.isSet a
  if !has then some [.store true a infWeight, .store false a infWeight]
  else do
    let i ← c.hasInputMap.toLocal a
    let f ← initFirst w c.fwdInput i
    let b ← initFirst w c.bwdInput i
    let ex ← c.hasExtra.isSet a
    if ex then do
      let i ← c.hasExtraMap.toLocal a
      let ef ← extraProg w c.firstExtraFwd c.extraFwd i a true
      let eb ← extraProg w c.firstExtraBwd c.extraBwd i a false
      some ([.store true a f, .store false a b] ++ ef ++ eb)
    else some [.store true a f, .store false a b]

/-- Line 932 with lines 820-830: relax all triangles that have the arc `a` as bottom arc. -/
def relaxProg (c : Cch) (a : Nat) : Option (List Instr) := do
  let l ← upperTriangles c.upFirstOut c.upHead c.upTail a
  some (l.flatMap fun t => [.relax true t, .relax false t])

/-- Lines 928-933: the iterations of level `l`. -/
def levelTasks (c : Cch) (par : Parallelization) (l : Nat) : Option (List (List Instr)) := do
  let lo ← rd par.firstArcOfLevel l
  let hi ← rd par.firstArcOfLevel (l + 1)
  (List.range' lo (hi - lo)).mapM fun i => do
    let a ← rd par.arcsByLevel i
    relaxProg c a

/-- Lines 916-935: the parallel loops in their order, each with its iterations. -/
def parallelPhases (c : Cch) (w : List Nat) (par : Parallelization) : Option (List (List (List Instr))) := do
  check (par.firstArcOfLevel.length != 0)
  let init ← (List.range c.cchArcCount).mapM (extractProg c w)
  let levels ← (List.range (par.firstArcOfLevel.length - 1)).mapM (levelTasks c par)
  some (init :: levels)

/-- The state of a parallel execution: the shared weights, the iterations of the current loop and the loops that
follow. -/
structure Pool where
  mem : Metric
  tasks : List Task
  phases : List (List (List Instr))

/-- One step of the execution: some task does its next memory access, or, if all are finished, the next loop starts. -/
inductive ParStep : Pool → Pool → Prop
  | task {m m' : Metric} {ts : List Task} {ph : List (List (List Instr))} (i : Nat) {t t' : Task} :
      rd ts i = some t → stepTask m t = some (m', t') → ParStep ⟨m, ts, ph⟩ ⟨m', ts.set i t', ph⟩
  | barrier {m : Metric} {ts : List Task} {p : List (List Instr)} {ph : List (List (List Instr))} :
      (∀ t ∈ ts, t.prog = []) → ParStep ⟨m, ts, p :: ph⟩ ⟨m, p.map fun q => ⟨q, .start⟩, ph⟩

/-- The states that can be reached. -/
inductive ParReach (s : Pool) : Pool → Prop
  | refl : ParReach s s
  | step {t u : Pool} : ParReach s t → ParStep t u → ParReach s u

/-- Everything is done. -/
def Pool.finished (s : Pool) : Prop := s.phases = [] ∧ ∀ t ∈ s.tasks, t.prog = []

/-- Some task does something undefined. -/
def Pool.undefined (s : Pool) : Prop := ∃ t ∈ s.tasks, t.prog ≠ [] ∧ stepTask s.mem t = none

/-- customizable_contraction_hierarchy.cpp:908-945 `customize(metric, thread_count)`: the possible results. With one
thread the sequential code runs (913-914); otherwise all interleavings of the parallel loops are possible, followed by
the checks of debug builds (939-942). -/
inductive ParallelCustomize (c : Cch) (par : Parallelization) (w : List Nat) (threads : Nat) (m : Metric) : Metric → Prop
  | sequential {m' : Metric} : threads = 1 → m.customize c w = some m' → ParallelCustomize c par w threads m m'
  | parallel {ph : List (List (List Instr))} {s : Pool} : threads ≠ 0 → threads ≠ 1 → parallelPhases c w par = some ph →
      ParReach ⟨m, [], ph⟩ s → s.finished → verifyAll c s.mem = some () → ParallelCustomize c par w threads m s.mem

end RK
