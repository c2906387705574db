import Verif.Model.CchMetric
/-!
# Model of `CustomizableContractionHierarchyQuery` (customizable_contraction_hierarchy.cpp:1043-1725, 1894-1915)

The members come in a forward and a backward copy; the model groups each copy in a `CchHalf`. `std::vector<bool>` is a
list of booleans. Loops which need not terminate on corrupt data carry fuel; `none` stands for undefined behaviour, a
failed assertion or an endless loop. Loops of the form `for(unsigned i = v.size()-1; i != (unsigned)-1; --i)` visit the
positions of `v` from the last to the first, since vectors have fewer than 2^32 elements; they do nothing if `v` is
empty.
-/
namespace RK

/-- What the pointer `metric` leads to: the metric, its hierarchy with its address, and the weights of the input arcs.
Pointers to hierarchies are compared by `reset(metric)`, hence the address. -/
structure CchHandle where
  addr : Nat
  cch : Cch
  metric : Metric
  inputWeight : List Nat

/-- customizable_contraction_hierarchy.h:161-169, the members that exist once per direction. -/
structure CchHalf where
  dist : List Nat
  pred : List Nat
  inSpace : List Bool
  nodes : List Nat
  ends : List Nat
deriving Repr, DecidableEq

/-- customizable_contraction_hierarchy.cpp:1043-1050. -/
inductive CchState
  | initialized | run | sourcePinned | sourceRun | targetPinned | targetRun
deriving Repr, DecidableEq

/-- customizable_contraction_hierarchy.h:160-175, the members. `on = none`: the pointers `cch` and `metric` are
uninitialized. -/
structure CchQuery where
  on : Option CchHandle
  fwd : CchHalf
  bwd : CchHalf
  meeting : Nat
  state : CchState

/-- Visits `k-1, ..., 0`. -/
def forDown {σ : Type} : Nat → σ → (σ → Nat → Option σ) → Option σ
  | 0, s, _ => some s
  | k + 1, s, f => do
    let s ← f s k
    forDown k s f

/-- customizable_contraction_hierarchy.cpp:1059-1065, the loop of `forall_ancestors`; `f` tells whether to go on. -/
def ancestorLoop {σ : Type} (parent : List Nat) (stop : Nat) (f : σ → Nat → Option (σ × Bool)) :
    Nat → Nat → σ → Option σ
  | 0, _, _ => none
  | fuel + 1, x, s =>
    if x ≠ stop then do
      check (decide (x < parent.length))
      let (s, go) ← f s x
      if go then do
        let p ← rd parent x
        check (decide (p > x))
        ancestorLoop parent stop f fuel p s
      else some s
    else some s

/-- customizable_contraction_hierarchy.cpp:1054-1066 `forall_ancestors`. -/
def forAncestors {σ : Type} (parent : List Nat) (x stop : Nat) (s : σ) (f : σ → Nat → Option (σ × Bool)) : Option σ := do
  check (decide (x < parent.length))
  check (decide (stop < parent.length ∨ stop = invalidId))
  ancestorLoop parent stop f (parent.length + 1) x s

/-- `forall_ancestors` with a lambda that ends with `return true`. -/
def forAncestors' {σ : Type} (parent : List Nat) (x stop : Nat) (s : σ) (f : σ → Nat → Option σ) : Option σ :=
  forAncestors parent x stop s fun s x => (f s x).map fun s => (s, true)

namespace CchHalf

/-- customizable_contraction_hierarchy.cpp:1096-1101, construction of one half. -/
def new (n : Nat) : CchHalf :=
  ⟨List.replicate n infWeight, List.replicate n 0, List.replicate n false, [], []⟩

/-- Lines 1084-1085, loop body. -/
def forget (s : List Bool × List Nat) (x : Nat) : Option (List Bool × List Nat) := do
  let b ← wr s.1 x false
  let d ← wr s.2 x infWeight
  some (b, d)

/-- customizable_contraction_hierarchy.cpp:1074-1092 `reset_source_list`. -/
def clear (parent : List Nat) (h : CchHalf) : Option CchHalf := do
  let (b, d) ← forRange 0 h.nodes.length (h.inSpace, h.dist) fun s i => do
    let x ← rd h.nodes i
    let e ← rd h.ends i
    forAncestors' parent x e s forget
  some { h with dist := d, inSpace := b, nodes := [], ends := [] }

/-- Lines 1128-1136, the lambda: mark nodes up to the first that is marked already. The state is
(`in_forward_search_space`, `source_elimination_tree_end`). -/
def enter (s : List Bool × List Nat) (x : Nat) : Option ((List Bool × List Nat) × Bool) := do
  let b ← rd s.1 x
  if !b then do
    let v ← wr s.1 x true
    some ((v, s.2), true)
  else some ((s.1, s.2 ++ [x]), false)

/-- customizable_contraction_hierarchy.cpp:1108-1143 `internal_add_source`. -/
def addNode (rank parent : List Nat) (h : CchHalf) (ext d : Nat) : Option CchHalf := do
  let s ← rd rank ext
  let ds ← rd h.dist s
  if ds = infWeight then do
    let nodes := h.nodes ++ [s]
    let dist ← wr h.dist s d
    let pred ← wr h.pred s invalidId
    let (b, ends) ← forAncestors parent s invalidId (h.inSpace, h.ends) enter
    some ⟨dist, pred, b, nodes, if ends.length ≠ nodes.length then ends ++ [invalidId] else ends⟩
  else do
    let dist ← minTo h.dist s d
    some { h with dist := dist }

/-- Lines 1556-1564, the lambda for the pinned node at position `i`. The state is
(`in_backward_search_space`, `target_elimination_tree_end`). -/
def enterPinned (i : Nat) (s : List Bool × List Nat) (x : Nat) : Option ((List Bool × List Nat) × Bool) := do
  let b ← rd s.1 x
  if !b then do
    let v ← wr s.1 x true
    some ((v, s.2), true)
  else do
    let e ← wr s.2 i x
    some ((s.1, e), false)

/-- `v.resize(k)`: cut, or filled up with zeros. -/
def resized (v : List Nat) (k : Nat) : List Nat := v.take k ++ List.replicate (k - v.length) 0

/-- customizable_contraction_hierarchy.cpp:1540-1567 `internal_pin_targets`. -/
def pin (rank parent : List Nat) (h : CchHalf) (list : List Nat) : Option CchHalf := do
  let (nodes, ends, b) ← forRange 0 list.length (resized h.nodes list.length, resized h.ends list.length, h.inSpace)
    fun s i => do
      let t ← rd list i
      let x ← rd rank t
      let nodes ← wr s.1 i x
      let ends ← wr s.2.1 i invalidId
      let (b, ends) ← forAncestors parent x invalidId (s.2.2, ends) (enterPinned i)
      some (nodes, ends, b)
  some { h with inSpace := b, nodes := nodes, ends := ends }

/-- Lines 1224-1238, 1250-1270, 1591-1600, 1632-1645, 1649-1658: visit the search space from the last to the first
entry of the list of start nodes. -/
def visit {σ : Type} (parent : List Nat) (h : CchHalf) (s : σ) (f : σ → Nat → Option σ) : Option σ :=
  forDown h.nodes.length s fun s i => do
    let x ← rd h.nodes i
    let e ← rd h.ends i
    forAncestors' parent x e s f

/-- Lines 1193-1197, loop body of `relax_outgoing_arcs`; `setPred` stores the predecessor. The state is
(tentative distance, predecessor). -/
def relaxOutArc (head weight : List Nat) (setPred : List Nat → Nat → Nat → Option (List Nat)) (x : Nat)
    (s : List Nat × List Nat) (xy : Nat) : Option (List Nat × List Nat) := do
  let y ← rd head xy
  let dx ← rd s.1 x
  let w ← rd weight xy
  let dy ← rd s.1 y
  if add32 dx w < dy then do
    let d ← wr s.1 y (add32 dx w)
    let p ← setPred s.2 y x
    some (d, p)
  else some s

/-- customizable_contraction_hierarchy.cpp:1183-1199 `relax_outgoing_arcs`. -/
def relaxOut (fo head weight : List Nat) (setPred : List Nat → Nat → Nat → Option (List Nat)) (s : List Nat × List Nat)
    (x : Nat) : Option (List Nat × List Nat) := do
  let b ← rd fo x
  let e ← rd fo (x + 1)
  forRange b e s (relaxOutArc head weight setPred x)

/-- Lines 1211-1215, loop body of `relax_incoming_arcs`, without predecessor (1666: the lambda does nothing). -/
def relaxInArc (head weight : List Nat) (x : Nat) (d : List Nat) (xy : Nat) : Option (List Nat) := do
  let y ← rd head xy
  let dy ← rd d y
  let w ← rd weight xy
  let dx ← rd d x
  if add32 dy w < dx then wr d x (add32 dy w) else some d

/-- customizable_contraction_hierarchy.cpp:1202-1217 `relax_incoming_arcs`. -/
def relaxIn (fo head weight : List Nat) (d : List Nat) (x : Nat) : Option (List Nat) := do
  let b ← rd fo x
  let e ← rd fo (x + 1)
  forRange b e d (relaxInArc head weight x)

/-- Lines 1224-1238: the search from the sources. -/
def search (c : Cch) (weight : List Nat) (h : CchHalf) : Option CchHalf := do
  let (d, p) ← h.visit c.parent (h.dist, h.pred) (relaxOut c.upFirstOut c.upHead weight wr)
  some { h with dist := d, pred := p }

/-- Lines 1260-1266: try `x` as meeting node. -/
def meet (h : CchHalf) (bdist : List Nat) (best : Nat × Nat) (x : Nat) : Option (Nat × Nat) := do
  let b ← rd h.inSpace x
  if b then do
    let df ← rd h.dist x
    let db ← rd bdist x
    if add32 df db < best.1 then some (add32 df db, x) else some best
  else some best

/-- Lines 1254-1268, the lambda. The state is (distance, predecessor, (`shortest_path_length`,
`shortest_path_meeting_node`)). -/
def meetStep (c : Cch) (weight : List Nat) (h : CchHalf) (s : List Nat × List Nat × Nat × Nat) (x : Nat) :
    Option (List Nat × List Nat × Nat × Nat) := do
  let (d, p) ← relaxOut c.upFirstOut c.upHead weight wr (s.1, s.2.1) x
  let best ← h.meet d s.2.2 x
  some (d, p, best)

/-- Lines 1653-1656, the lambda: push on the stack. The state is (`stack`, `stack_end`). -/
def pushStack (s : List Nat × Nat) (x : Nat) : Option (List Nat × Nat) := do
  let v ← wr s.1 s.2 x
  some (v, s.2 + 1)

/-- Lines 1660-1669: pop and relax. -/
def popStack (c : Cch) (weight : List Nat) : Nat → List Nat → List Nat → Option (List Nat × List Nat)
  | 0, stack, d => some (stack, d)
  | k + 1, stack, d => do
    let x ← rd stack k
    let stack ← wr stack k infWeight
    let d ← relaxIn c.upFirstOut c.upHead weight d x
    popStack c weight k stack d

/-- customizable_contraction_hierarchy.cpp:1625-1670 `internal_run_to_pinned_targets`; `h` is the half of the sources,
`t` that of the pinned targets. -/
def pinnedRun (c : Cch) (fw bw : List Nat) (h t : CchHalf) : Option (CchHalf × CchHalf) := do
  let (d, _) ← h.visit c.parent (h.dist, []) (relaxOut c.upFirstOut c.upHead fw (fun p _ _ => some p))
  let (stack, k) ← t.visit c.parent (t.dist, 0) pushStack
  let (stack, d) ← popStack c bw k stack d
  some ({ h with dist := d }, { t with dist := stack })

/-- customizable_contraction_hierarchy.cpp:1585-1601 `reset_target_distances`: `t` is the pinned half, `d` the
distances of the other. -/
def clearDistances (parent : List Nat) (t : CchHalf) (d : List Nat) : Option (List Nat) :=
  t.visit parent d fun d x => wr d x infWeight

/-- Lines 1294-1297, 1307-1310, 1405-1409, 1421-1432: the nodes from `x` along the predecessors (first `x`) and the
last of them. -/
def chain (h : CchHalf) : Nat → Nat → Option (List Nat × Nat)
  | 0, _ => none
  | fuel + 1, x => do
    let p ← rd h.pred x
    if p ≠ invalidId then do
      let (l, z) ← h.chain fuel p
      some (x :: l, z)
    else some ([x], x)

end CchHalf

/-- Lines 1357-1376 `unpacker`: does the triangle explain the weight of the arc? -/
def triFits (m : Metric) (isForward : Bool) (t : Tri) : Option Bool := do
  if isForward then do
    let a ← rd m.forward t.top
    let b ← rd m.backward t.bottom
    let f ← rd m.forward t.mid
    some (decide (a = add32 b f))
  else do
    let a ← rd m.backward t.top
    let f ← rd m.forward t.bottom
    let b ← rd m.backward t.mid
    some (decide (a = add32 f b))

/-- The first triangle that fits. (The code enumerates the triangles lazily and stops here.) -/
def firstFit (m : Metric) (isForward : Bool) : List (Tri × Nat) → Option (Option (Tri × Nat))
  | [] => some none
  | t :: l => do
    let b ← triFits m isForward t.1
    if b then some (some t) else firstFit m isForward l

/-- A call of `on_new_segment`: node, arc, direction. -/
structure Segment where
  node : Nat
  arc : Nat
  isForward : Bool
deriving Repr, DecidableEq

/-- customizable_contraction_hierarchy.cpp:1343-1392 `unpack_arc`. -/
def unpackArc (c : Cch) (m : Metric) : Nat → Bool → Nat → Nat → Nat → Option (List Segment)
  | 0, _, _, _, _ => none
  | fuel + 1, isForward, x, y, xy => do
    let t ← rd c.upTail xy
    let h ← rd c.upHead xy
    check (decide (x = t))
    check (decide (y = h))
    let l ← c.lowerTriangles x y xy
    let r ← firstFit m isForward l
    match r with
    | none => if isForward then some [⟨x, xy, true⟩] else some [⟨y, xy, false⟩]
    | some (t, z) =>
      if isForward then do
        let l1 ← unpackArc c m fuel false z x t.bottom
        let l2 ← unpackArc c m fuel true z y t.mid
        some (l1 ++ l2)
      else do
        let l1 ← unpackArc c m fuel false z y t.mid
        let l2 ← unpackArc c m fuel true z x t.bottom
        some (l1 ++ l2)

/-- Lines 1411-1418: the arcs between consecutive nodes of the list, from the last (lowest) to the first. -/
def unpackUp (c : Cch) (m : Metric) : List Nat → Option (List Segment)
  | y :: x :: l => do
    let r ← unpackUp c m (x :: l)
    let xy ← findArcGivenSortedHead c.upFirstOut c.upHead x y
    let s ← unpackArc c m (c.rank.length + 1) true x y xy
    some (r ++ s)
  | _ => some []

/-- Lines 1421-1432: the arcs between consecutive nodes of the list, from the first (highest) to the last. -/
def unpackDown (c : Cch) (m : Metric) : List Nat → Option (List Segment)
  | x :: y :: l => do
    let xy ← findArcGivenSortedHead c.upFirstOut c.upHead y x
    let s ← unpackArc c m (c.rank.length + 1) false y x xy
    let r ← unpackDown c m (y :: l)
    some (s ++ r)
  | _ => some []

/-- Lines 1471-1475 and 1494-1498: the remaining candidates `k, ..., k+n-1`. -/
def scanExtra (w extra : List Nat) (v : Nat) : Nat → Nat → Option Nat
  | 0, _ => some invalidId
  | n + 1, k => do
    let e ← rd extra k
    let x ← rd w e
    if v = x then some e else scanExtra w extra v n (k + 1)

/-- customizable_contraction_hierarchy.cpp:1458-1480 `unpack_original_forward_arc` and 1482-1503
`unpack_original_backward_arc`, which only differ in the vectors they use: `val` are the weights of the metric, `first`,
`fo` and `extra` tell the input arcs. -/
def originalArc (c : Cch) (w val first fo extra : List Nat) (a : Nat) : Option Nat := do
  let has ← c.hasInput.isSet a
  if has then do
    let i ← c.hasInputMap.toLocal a
    let e ← rd first i
    if e ≠ invalidId then do
      let v ← rd val a
      let x ← rd w e
      if v = x then some e
      else do
        let ex ← c.hasExtra.isSet a
        if ex then do
          let j ← c.hasExtraMap.toLocal a
          let lo ← rd fo j
          let hi ← rd fo (j + 1)
          scanExtra w extra v (hi - lo) lo
        else some invalidId
    else some invalidId
  else some invalidId

/-- customizable_contraction_hierarchy.cpp:1506-1514 `unpack_original_arc`. -/
def cchUnpackOriginal (h : CchHandle) (s : Segment) : Option Nat :=
  if s.isForward then originalArc h.cch h.inputWeight h.metric.forward h.cch.fwdInput h.cch.firstExtraFwd h.cch.extraFwd s.arc
  else originalArc h.cch h.inputWeight h.metric.backward h.cch.bwdInput h.cch.firstExtraBwd h.cch.extraBwd s.arc

/-- Lines 1524-1533, the lambda of `get_arc_path`. -/
def segmentArc (h : CchHandle) (s : Segment) : Option Nat := do
  let t ← rd (if s.isForward then h.cch.upTail else h.cch.upHead) s.arc
  check (decide (s.node = t))
  let a ← cchUnpackOriginal h s
  check (decide (a ≠ invalidId))
  some a

namespace CchQuery

/-- customizable_contraction_hierarchy.cpp:1095-1105, constructor. -/
def new (h : CchHandle) : CchQuery :=
  ⟨some h, CchHalf.new h.cch.rank.length, CchHalf.new h.cch.rank.length, invalidId, .initialized⟩

/-- customizable_contraction_hierarchy.h:126, default constructor: empty vectors, all other members uninitialized. -/
def null : CchQuery := ⟨none, ⟨[], [], [], [], []⟩, ⟨[], [], [], [], []⟩, 0, .initialized⟩

/-- Lines 1895-1899: the distances changed by a run to pinned nodes. -/
def clearPinned (c : Cch) (q : CchQuery) : Option CchQuery :=
  if q.state = .targetPinned ∨ q.state = .targetRun then do
    let d ← q.bwd.clearDistances c.parent q.fwd.dist
    some { q with fwd := { q.fwd with dist := d } }
  else if q.state = .sourcePinned ∨ q.state = .sourceRun then do
    let d ← q.fwd.clearDistances c.parent q.bwd.dist
    some { q with bwd := { q.bwd with dist := d } }
  else some q

/-- customizable_contraction_hierarchy.cpp:1894-1904 `reset()`. -/
def reset (q : CchQuery) : Option CchQuery := do
  let on ← q.on
  let q ← clearPinned on.cch q
  let f ← q.fwd.clear on.cch.parent
  let b ← q.bwd.clear on.cch.parent
  some { q with fwd := f, bwd := b, state := .initialized }

/-- customizable_contraction_hierarchy.cpp:1906-1915 `reset(metric)`. If the metric the object points to was customized
again in place, `reset()` has the same effect as this function. -/
def resetMetric (q : CchQuery) (h : CchHandle) : Option CchQuery := do
  let on ← q.on
  if on.addr = h.addr then reset { q with on := some h } else some (new h)

/-- customizable_contraction_hierarchy.cpp:1149-1163 `add_source`. -/
def addSource (q : CchQuery) (s d : Nat) : Option CchQuery := do
  let on ← q.on
  check (decide (s < on.cch.rank.length))
  check (decide (q.state = .initialized ∨ q.state = .targetPinned))
  let h ← q.fwd.addNode on.cch.rank on.cch.parent s d
  some { q with fwd := h }

/-- customizable_contraction_hierarchy.cpp:1165-1179 `add_target`. -/
def addTarget (q : CchQuery) (t d : Nat) : Option CchQuery := do
  let on ← q.on
  check (decide (t < on.cch.rank.length))
  check (decide (q.state = .initialized ∨ q.state = .sourcePinned))
  let h ← q.bwd.addNode on.cch.rank on.cch.parent t d
  some { q with bwd := h }

/-- customizable_contraction_hierarchy.cpp:1221-1279 `run`. -/
def run (q : CchQuery) : Option CchQuery := do
  let on ← q.on
  check (decide (q.state = .initialized))
  let f ← q.fwd.search on.cch on.metric.forward
  let (d, p, best) ← q.bwd.visit on.cch.parent (q.bwd.dist, q.bwd.pred, infWeight, invalidId)
    (CchHalf.meetStep on.cch on.metric.backward f)
  some { q with fwd := f, bwd := { q.bwd with dist := d, pred := p }, meeting := best.2, state := .run }

/-- customizable_contraction_hierarchy.cpp:1281-1287 `get_distance`. -/
def getDistance (q : CchQuery) : Option Nat := do
  check (decide (q.state = .run))
  if q.meeting = invalidId then some infWeight
  else do
    let a ← rd q.fwd.dist q.meeting
    let b ← rd q.bwd.dist q.meeting
    some (add32 a b)

/-- customizable_contraction_hierarchy.cpp:1289-1300 `get_used_source`. -/
def getUsedSource (q : CchQuery) : Option Nat := do
  let on ← q.on
  check (decide (q.state = .run))
  if q.meeting = invalidId then some invalidId
  else do
    let (_, x) ← q.fwd.chain (on.cch.rank.length + 1) q.meeting
    rd on.cch.order x

/-- customizable_contraction_hierarchy.cpp:1302-1313 `get_used_target`. -/
def getUsedTarget (q : CchQuery) : Option Nat := do
  let on ← q.on
  check (decide (q.state = .run))
  if q.meeting = invalidId then some invalidId
  else do
    let (_, x) ← q.bwd.chain (on.cch.rank.length + 1) q.meeting
    rd on.cch.order x

/-- customizable_contraction_hierarchy.cpp:1395-1435 `unpack_shortest_path`, for an object that found a path: the
segments, and the returned last node. -/
def segments (q : CchQuery) (on : CchHandle) : Option (List Segment × Nat) := do
  let (up, _) ← q.fwd.chain (on.cch.rank.length + 1) q.meeting
  let l1 ← unpackUp on.cch on.metric up
  let (down, x) ← q.bwd.chain (on.cch.rank.length + 1) q.meeting
  let l2 ← unpackDown on.cch on.metric down
  some (l1 ++ l2, x)

/-- customizable_contraction_hierarchy.cpp:1438-1452 `get_node_path`. -/
def getNodePath (q : CchQuery) : Option (List Nat) := do
  let on ← q.on
  check (decide (q.state = .run))
  if q.meeting = invalidId then some []
  else do
    let (l, x) ← q.segments on
    let path ← l.mapM fun s => rd on.cch.order s.node
    let last ← rd on.cch.order x
    some (path ++ [last])

/-- customizable_contraction_hierarchy.cpp:1517-1537 `get_arc_path`. -/
def getArcPath (q : CchQuery) : Option (List Nat) := do
  let on ← q.on
  check (decide (q.state = .run))
  if q.meeting = invalidId then some []
  else do
    let (l, _) ← q.segments on
    l.mapM (segmentArc on)

/-- customizable_contraction_hierarchy.cpp:1604-1612 `reset_source`. -/
def resetSource (q : CchQuery) : Option CchQuery := do
  let on ← q.on
  check (decide (q.state = .targetPinned ∨ q.state = .targetRun))
  let f ← q.fwd.clear on.cch.parent
  let d ← q.bwd.clearDistances on.cch.parent f.dist
  some { q with fwd := { f with dist := d }, state := .targetPinned }

/-- customizable_contraction_hierarchy.cpp:1614-1622 `reset_target`. -/
def resetTarget (q : CchQuery) : Option CchQuery := do
  let on ← q.on
  check (decide (q.state = .sourcePinned ∨ q.state = .sourceRun))
  let b ← q.bwd.clear on.cch.parent
  let d ← q.fwd.clearDistances on.cch.parent b.dist
  some { q with bwd := { b with dist := d }, state := .sourcePinned }

/-- customizable_contraction_hierarchy.cpp:1570-1575 `pin_targets`. -/
def pinTargets (q : CchQuery) (targets : List Nat) : Option CchQuery := do
  let on ← q.on
  check (decide (q.state = .initialized))
  let h ← q.bwd.pin on.cch.rank on.cch.parent targets
  some { q with bwd := h, state := .targetPinned }

/-- customizable_contraction_hierarchy.cpp:1577-1582 `pin_sources`. -/
def pinSources (q : CchQuery) (sources : List Nat) : Option CchQuery := do
  let on ← q.on
  check (decide (q.state = .initialized))
  let h ← q.fwd.pin on.cch.rank on.cch.parent sources
  some { q with fwd := h, state := .sourcePinned }

/-- customizable_contraction_hierarchy.cpp:1673-1684 `run_to_pinned_targets`. -/
def runToPinnedTargets (q : CchQuery) : Option CchQuery := do
  let on ← q.on
  check (decide (q.state = .targetPinned))
  let (f, b) ← CchHalf.pinnedRun on.cch on.metric.forward on.metric.backward q.fwd q.bwd
  some { q with fwd := f, bwd := b, state := .targetRun }

/-- customizable_contraction_hierarchy.cpp:1686-1697 `run_to_pinned_sources`. -/
def runToPinnedSources (q : CchQuery) : Option CchQuery := do
  let on ← q.on
  check (decide (q.state = .sourcePinned))
  let (b, f) ← CchHalf.pinnedRun on.cch on.metric.backward on.metric.forward q.bwd q.fwd
  some { q with fwd := f, bwd := b, state := .sourceRun }

/-- customizable_contraction_hierarchy.cpp:1699-1711 `get_distances_to_targets` (both overloads; `&v[0]` is undefined
for an empty vector). -/
def getDistancesToTargets (q : CchQuery) : Option (List Nat) := do
  check (decide (q.state = .targetRun))
  check (decide (q.bwd.nodes ≠ []))
  q.bwd.nodes.mapM (rd q.fwd.dist)

/-- customizable_contraction_hierarchy.cpp:1713-1725 `get_distances_to_sources`. -/
def getDistancesToSources (q : CchQuery) : Option (List Nat) := do
  check (decide (q.state = .sourceRun))
  check (decide (q.fwd.nodes ≠ []))
  q.fwd.nodes.mapM (rd q.bwd.dist)

end CchQuery
end RK
