import Verif.Model.ChQuery
/-! # Model of the extra weights of contraction hierarchies (contraction_hierarchy.h:69-81, 241-738)

The weights have an arbitrary type `W`; `dflt` is the default constructed object `Weight{}`. The link
function is a pure total function (the code permits functions that throw; not modelled). As in
`Verif.Model.ChQuery`, `none` stands for undefined behaviour, a failed assertion or an endless loop. -/
namespace RK
variable {W : Type}

/-- contraction_hierarchy.h:284-292 `SaturatedWeightAddition` for `unsigned`. -/
def satAddUnsigned (l r : Nat) : Option Nat := do
  check (decide (l ≤ infWeight))
  check (decide (r ≤ infWeight))
  if l ≥ infWeight - r then some infWeight else some (l + r)

/-- `INT_MAX` and `INT_MIN` for 32-bit `int`. -/
def intMax : Int := 2147483647
def intMin : Int := -2147483648

/-- Arithmetic of `int`: overflow is undefined. -/
def int32 (z : Int) : Option Int := if intMin ≤ z ∧ z ≤ intMax then some z else none

/-- contraction_hierarchy.h:294-306 `SaturatedWeightAddition` for `int`. -/
def satAddInt (l r : Int) : Option Int :=
  if l > 0 then do
    let d ← int32 (intMax - l)
    if r > d then some intMax else int32 (l + r)
  else do
    let d ← int32 (intMin - l)
    if r < d then some intMin else int32 (l + r)

/-- contraction_hierarchy.h:309-326 `InverseLinkFunction`. -/
def inverseLink (link : W → W → W) : W → W → W := fun l r => link r l

/-- contraction_hierarchy.h:328-357 `ShortcutWeights` for a container: `get_forward_weight`
(`up = true`) and `get_backward_weight` (`up = false`). -/
def Ch.linkWeight (ch : Ch) (input : List W) (link : W → W → W) : Nat → Bool → Nat → Option W
  | 0, _, _ => none
  | fuel + 1, up, a => do
    let s := if up then ch.forward else ch.backward
    let o ← s.isOriginal.isSet a
    let i ← rd s.first a
    if o then rd input i
    else do
      let j ← rd s.second a
      let l ← ch.linkWeight input link fuel false i
      let r ← ch.linkWeight input link fuel true j
      some (link l r)

/-- contraction_hierarchy.h:69-81 `ContractionHierarchyExtraWeight`. -/
structure ChExtra (W : Type) where
  forward : List W
  backward : List W
deriving Repr, DecidableEq

namespace ChExtra

/-- contraction_hierarchy.h:517-524, 527-534: the weight of one arc of the side `s`. -/
def arcWeight (s : ChSide) (input : List W) (link : W → W → W) (x : ChExtra W) (a : Nat) : Option W := do
  let o ← s.isOriginal.isSet a
  let i ← rd s.first a
  if o then rd input i
  else do
    let j ← rd s.second a
    let l ← rd x.backward i
    let r ← rd x.forward j
    some (link l r)

/-- contraction_hierarchy.h:516-525: body of the loop over the forward arcs. -/
def storeForward (ch : Ch) (input : List W) (link : W → W → W) (x : ChExtra W) (a : Nat) : Option (ChExtra W) := do
  let v ← arcWeight ch.forward input link x a
  let l ← wr x.forward a v
  some { x with forward := l }

/-- contraction_hierarchy.h:526-535: body of the loop over the backward arcs. -/
def storeBackward (ch : Ch) (input : List W) (link : W → W → W) (x : ChExtra W) (a : Nat) : Option (ChExtra W) := do
  let v ← arcWeight ch.backward input link x a
  let l ← wr x.backward a v
  some { x with backward := l }

/-- contraction_hierarchy.h:515-536: body of the loop over the nodes. -/
def nodeWeights (ch : Ch) (input : List W) (link : W → W → W) (x : ChExtra W) (v : Nat) : Option (ChExtra W) := do
  let b ← rd ch.forward.firstOut v
  let e ← rd ch.forward.firstOut (v + 1)
  let x ← forRange b e x (storeForward ch input link)
  let b ← rd ch.backward.firstOut v
  let e ← rd ch.backward.firstOut (v + 1)
  forRange b e x (storeBackward ch input link)

/-- `std::vector::resize`. -/
def resized (dflt : W) (v : List W) (k : Nat) : List W := v.take k ++ List.replicate (k - v.length) dflt

/-- contraction_hierarchy.h:508-538 `reset`; the constructor (75) calls it with empty vectors. -/
def reset (dflt : W) (ch : Ch) (input : List W) (link : W → W → W) (x : ChExtra W) : Option (ChExtra W) :=
  forRange 0 ch.rank.length
    ⟨resized dflt x.forward ch.forward.weight.length, resized dflt x.backward ch.backward.weight.length⟩
    (nodeWeights ch input link)

end ChExtra

/-- What is passed as `extra_weight`: a container indexed by input arcs or a `ContractionHierarchyExtraWeight`. -/
inductive ExtraWeight (W : Type)
  | container (v : List W)
  | table (x : ChExtra W)

/-- contraction_hierarchy.h:328-357 or 359-376 `ShortcutWeights`: `get_forward_weight` (`up = true`) and
`get_backward_weight`. -/
def ExtraWeight.get (e : ExtraWeight W) (ch : Ch) (link : W → W → W) (up : Bool) (a : Nat) : Option W :=
  match e with
  | .container v => ch.linkWeight v link (ch.rank.length + 1) up a
  | .table x => rd (if up then x.forward else x.backward) a

namespace ChHalf

/-- contraction_hierarchy.h:420-423: the loop of `get_extra_weight_up_distance`. -/
def upRest (h : ChHalf) (get : Nat → Option W) (link : W → W → W) : Nat → Nat → W → Option W
  | 0, _, _ => none
  | fuel + 1, x, ret => do
    let p ← rd h.predNode x
    if p = invalidId then some ret
    else do
      let a ← rd h.predArc x
      let w ← get a
      upRest h get link fuel p (link w ret)

/-- contraction_hierarchy.h:405-425 `get_extra_weight_up_distance`. -/
def upDistance (h : ChHalf) (get : Nat → Option W) (link : W → W → W) (fuel x : Nat) : Option W := do
  let p ← rd h.predNode x
  check (decide (p ≠ invalidId))
  let a ← rd h.predArc x
  let w ← get a
  upRest h get link fuel p w

end ChHalf

namespace ChQuery

/-- contraction_hierarchy.h:428-487 `internal_get_extra_weight_distance`. -/
def extraDistance (q : ChQuery) (dflt : W) (get : Bool → Nat → Option W) (link : W → W → W) (fuel : Nat) : Option W :=
  if q.meeting = invalidId then some dflt
  else do
    let pf ← rd q.fwd.predNode q.meeting
    let pb ← rd q.bwd.predNode q.meeting
    if pf = invalidId ∧ pb = invalidId then some dflt
    else if pf ≠ invalidId ∧ pb ≠ invalidId then do
      let l ← q.fwd.upDistance (get true) link fuel q.meeting
      let r ← q.bwd.upDistance (get false) (inverseLink link) fuel q.meeting
      some (link l r)
    else if pf ≠ invalidId then q.fwd.upDistance (get true) link fuel q.meeting
    else q.bwd.upDistance (get false) (inverseLink link) fuel q.meeting

/-- contraction_hierarchy.h:491-506 `get_extra_weight_distance`. -/
def getExtraWeightDistance (q : ChQuery) (dflt : W) (extra : ExtraWeight W) (link : W → W → W) : Option W := do
  let ch ← q.ch
  check (decide (q.state = .run))
  q.extraDistance dflt (extra.get ch link) link ch.rank.length

end ChQuery

/-- contraction_hierarchy.h:557-562: the scratch data of `extract_distances_to_targets`. -/
structure ExtraTmp (W : Type) where
  tmp : List W
  has : TimestampFlags
  stack : List Nat

namespace ExtraTmp

/-- contraction_hierarchy.h:591-595, 605-610: the value of `x` with predecessor `p` and arc weight `w`. -/
def store (link : W → W → W) (e : ExtraTmp W) (x p : Nat) (w : W) : Option (ExtraTmp W) := do
  let b ← e.has.isSet p
  let v ← if b then do
      let u ← rd e.tmp p
      some (link u w)
    else some w
  let tmp ← wr e.tmp x v
  let has ← e.has.set x
  some { e with tmp := tmp, has := has }

/-- contraction_hierarchy.h:583-596 `single_forward_step_expand_distance_to_node`. -/
def forwardStep (h : ChHalf) (up : Nat → Option W) (link : W → W → W) (e : ExtraTmp W) (x : Nat) : Option (ExtraTmp W) := do
  let d ← e.has.isSet x
  check (!d)
  let f ← h.pushed.isSet x
  check f
  let p ← rd h.predNode x
  check (decide (p ≠ invalidId))
  let a ← rd h.predArc x
  let w ← up a
  e.store link x p w

/-- contraction_hierarchy.h:598-611 `single_backward_step_expand_distance_to_node`. -/
def backwardStep (h : ChHalf) (opp : ChSide) (down : Nat → Option W) (link : W → W → W) (e : ExtraTmp W) (x : Nat) :
    Option (ExtraTmp W) := do
  let d ← e.has.isSet x
  check (!d)
  let f ← h.pushed.isSet x
  check (!f)
  let a ← rd h.predArc x
  let p ← rd opp.head a
  let w ← down a
  e.store link x p w

/-- contraction_hierarchy.h:573-576 `push`; `k` is the stack size. -/
def push (e : ExtraTmp W) (k x : Nat) : Option (ExtraTmp W) := do
  let s ← wr e.stack k x
  some { e with stack := s }

/-- contraction_hierarchy.h:623-633: the second loop of `push_non_reached_nodes`; `k` is the stack size,
`c` the number of its nodes with forward predecessor. -/
def pushUp (dflt : W) (h : ChHalf) : Nat → ExtraTmp W → Nat → Nat → Nat → Option (ExtraTmp W × Nat × Nat)
  | 0, _, _, _, _ => none
  | fuel + 1, e, k, c, x => do
    let y ← rd h.predNode x
    if y = invalidId then do
      let tmp ← wr e.tmp x dflt
      some ({ e with tmp := tmp }, k, c)
    else do
      let f ← h.pushed.isSet x
      check f
      let e ← e.push k x
      check (decide (y < x))
      let d ← e.has.isSet y
      if d then some (e, k + 1, c + 1)
      else pushUp dflt h fuel e (k + 1) (c + 1) y

/-- contraction_hierarchy.h:613-634 `push_non_reached_nodes` from its first loop on. -/
def pushDown (dflt : W) (h : ChHalf) (opp : ChSide) : Nat → ExtraTmp W → Nat → Nat → Option (ExtraTmp W × Nat × Nat)
  | 0, _, _, _ => none
  | fuel + 1, e, k, x => do
    let f ← h.pushed.isSet x
    if f then pushUp dflt h (h.dist.length + 1) e k 0 x
    else do
      let e ← e.push k x
      let a ← rd h.predArc x
      let y ← rd opp.head a
      check (decide (y > x))
      let d ← e.has.isSet y
      if d then some (e, k + 1, 0)
      else pushDown dflt h opp fuel e (k + 1) y

/-- contraction_hierarchy.h:639-647 and 578-581: pops all nodes; `k` and `c` as above. -/
def popAll (h : ChHalf) (opp : ChSide) (up down : Nat → Option W) (link : W → W → W) : Nat → Nat → ExtraTmp W → Option (ExtraTmp W)
  | 0, _, e => some e
  | k + 1, c, e => do
    let y ← rd e.stack k
    if c ≠ 0 then do
      let e ← forwardStep h up link e y
      popAll h opp up down link k (c - 1) e
    else do
      let e ← backwardStep h opp down link e y
      popAll h opp up down link k 0 e

/-- contraction_hierarchy.h:636-649 `expand_distances_from_source_to_node`. -/
def expand (dflt : W) (h : ChHalf) (opp : ChSide) (up down : Nat → Option W) (link : W → W → W) (e : ExtraTmp W) (x : Nat) :
    Option (ExtraTmp W) := do
  let d ← e.has.isSet x
  if d then some e
  else do
    let (e, k, c) ← pushDown dflt h opp (h.dist.length + 1) e 0 x
    popAll h opp up down link k c e

/-- contraction_hierarchy.h:651-661: body of the loop over the pinned nodes; the state contains the output. -/
def target (dflt : W) (h : ChHalf) (opp : ChSide) (up down : Nat → Option W) (link : W → W → W) (list : List Nat)
    (s : ExtraTmp W × List W) (i : Nat) : Option (ExtraTmp W × List W) := do
  let t ← rd list i
  check (decide (t ≠ invalidId))
  let f ← h.pushed.isSet t
  let a ← rd h.predArc t
  if !f && a == invalidId then do
    let out ← wr s.2 i dflt
    some (s.1, out)
  else do
    let e ← s.1.expand dflt h opp up down link t
    let v ← rd e.tmp t
    let out ← wr s.2 i v
    some (e, out)

/-- contraction_hierarchy.h:541-662 `extract_distances_to_targets`: `h` is the half that searched, `pinned`
the half that holds the list of pinned nodes and lends flags and stack, `out` the output container.
Returns the changed half, `tmp` and the output. -/
def extract (dflt : W) (h pinned : ChHalf) (count : Nat) (opp : ChSide) (up down : Nat → Option W) (link : W → W → W)
    (tmp out : List W) : Option (ChHalf × List W × List W) := do
  let (e, out) ← forRange 0 count (⟨tmp, pinned.pushed.resetAll, pinned.predArc⟩, out)
    (target dflt h opp up down link pinned.predNode)
  some ({ pinned with pushed := e.has, predArc := e.stack }, e.tmp, out)

end ExtraTmp

namespace ChQuery

/-- contraction_hierarchy.h:665-699 `get_extra_weight_distances_to_targets` with both containers; returns
the query object, `tmp` and `dist`. -/
def extraToTargets (q : ChQuery) (dflt : W) (extra : ExtraWeight W) (link : W → W → W) (tmp dist : List W) :
    Option (ChQuery × List W × List W) := do
  check (decide (q.state = .targetRun))
  let ch ← q.ch
  let (b, tmp, dist) ← ExtraTmp.extract dflt q.fwd q.bwd q.manyCount ch.backward (extra.get ch link true)
    (extra.get ch link false) link tmp dist
  some ({ q with bwd := b }, tmp, dist)

/-- contraction_hierarchy.h:701-738 `get_extra_weight_distances_to_sources` with both containers. -/
def extraToSources (q : ChQuery) (dflt : W) (extra : ExtraWeight W) (link : W → W → W) (tmp dist : List W) :
    Option (ChQuery × List W × List W) := do
  check (decide (q.state = .sourceRun))
  let ch ← q.ch
  let (f, tmp, dist) ← ExtraTmp.extract dflt q.bwd q.fwd q.manyCount ch.forward (extra.get ch link false)
    (extra.get ch link true) (inverseLink link) tmp dist
  some ({ q with fwd := f }, tmp, dist)

/-- contraction_hierarchy.h:241-249 `get_extra_weight_distances_to_targets` without containers. -/
def getExtraToTargets (q : ChQuery) (dflt : W) (extra : ExtraWeight W) (link : W → W → W) : Option (ChQuery × List W) := do
  let ch ← q.ch
  let c ← q.getPinnedTargetCount
  let (q, _, dist) ← q.extraToTargets dflt extra link (List.replicate ch.rank.length dflt) (List.replicate c dflt)
  some (q, dist)

/-- contraction_hierarchy.h:263-271 `get_extra_weight_distances_to_sources` without containers. -/
def getExtraToSources (q : ChQuery) (dflt : W) (extra : ExtraWeight W) (link : W → W → W) : Option (ChQuery × List W) := do
  let ch ← q.ch
  let c ← q.getPinnedSourceCount
  let (q, _, dist) ← q.extraToSources dflt extra link (List.replicate ch.rank.length dflt) (List.replicate c dflt)
  some (q, dist)

end ChQuery
end RK
