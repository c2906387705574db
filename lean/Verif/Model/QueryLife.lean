import Verif.Proof.ChQuery
import Verif.Spec.QueryLife
/-! # Several hierarchies and several query objects (`/repo/include/routingkit/contraction_hierarchy.h:104-219`)

`Model/ChQuery` stores the hierarchy in the query object. Here the object has a pointer to a variable, as in the code, and every
call works with what the variable holds at the time of the call. -/
namespace RK
open Spec

/-- The variables of a program. A hierarchy that is destroyed or moved from is `none`. Of a query object there is the pointer
(the number of a variable) and the other members; the field `ch` of the latter is only used as whether the pointer is null. -/
structure ChProgram where
  hiers : Nat → Option Ch
  queries : Nat → Option (Nat × ChQuery)

/-- The hierarchy named in a call is looked up. -/
def _root_.Spec.QOp.withHier (ch : Ch) : QOp Nat → QOp Ch
  | .reset => .reset
  | .attach _ G => .attach ch G
  | .addSource s d => .addSource s d
  | .addTarget t d => .addTarget t d
  | .run => .run
  | .results => .results
  | .pinTargets ts => .pinTargets ts
  | .pinSources ss => .pinSources ss
  | .resetSource => .resetSource
  | .resetTarget => .resetTarget
  | .runToPinnedTargets => .runToPinnedTargets
  | .runToPinnedSources => .runToPinnedSources
  | .resultsToTargets => .resultsToTargets
  | .resultsToSources => .resultsToSources
  | .pinnedTargetCount => .pinnedTargetCount
  | .pinnedSourceCount => .pinnedSourceCount

/-- contraction_hierarchy.cpp:1426-2198, a call on a query object. `reset(new_ch)` (lines 1452-1460) does not use the old hierarchy
and stores the address of the new one; all other functions use the hierarchy at the stored address. (A few, such as `get_distance`, do
not even do that; here they are undefined without hierarchy as well.) -/
def ChProgram.callQuery (w : ChProgram) (k : Nat) (op : QOp Nat) : Option (ChProgram × QOut) := do
  let (p, m) ← w.queries k
  match op with
  | .attach j G => do
    let ch ← w.hiers j
    let (m', out) ← chCall m (.attach ch G)
    some (⟨w.hiers, changed w.queries k (some (j, m'))⟩, out)
  | op => do
    let ch ← w.hiers p
    let (m', out) ← chCall { m with ch := some ch } (op.withHier ch)
    some (⟨w.hiers, changed w.queries k (some (p, m'))⟩, out)

/-- contraction_hierarchy.h:25-104 and 104-219: the copy and move operations of both classes are those that the compiler generates,
member by member; the pointer is copied. The constructor is contraction_hierarchy.cpp:1426-1436. -/
def ChProgram.call (w : ChProgram) : LifeOp Ch → Option (ChProgram × QOut)
  | .build i ch _ => some (⟨changed w.hiers i (some ch), w.queries⟩, .unit)
  | .copyHier i j => do
    let ch ← w.hiers j
    some (⟨changed w.hiers i (some ch), w.queries⟩, .unit)
  | .moveHier i j => do
    let ch ← w.hiers j
    some (⟨changed (changed w.hiers i (some ch)) j none, w.queries⟩, .unit)
  | .endHier i => do
    let _ ← w.hiers i
    some (⟨changed w.hiers i none, w.queries⟩, .unit)
  | .construct k i => do
    let ch ← w.hiers i
    some (⟨w.hiers, changed w.queries k (some (i, ChQuery.new ch))⟩, .unit)
  | .copyQuery k l => do
    let m ← w.queries l
    some (⟨w.hiers, changed w.queries k (some m)⟩, .unit)
  | .endQuery k => do
    let _ ← w.queries k
    some (⟨w.hiers, changed w.queries k none⟩, .unit)
  | .call k op => w.callQuery k op

end RK
