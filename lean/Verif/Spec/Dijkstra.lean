import Verif.Spec.Graph
/-! # Specification of a one-to-many search with time-dependent weights

Journeys instead of walks: an arc may take a different time depending on the departure time. With
constant weights a journey is an ordinary weighted walk. -/
namespace Spec

/-- A graph with travel times: `time a t = some w` if the arc `a` entered at time `t` takes `w`. -/
structure TGraph where
  n : Nat
  firstOut : List Nat
  tail : List Nat
  head : List Nat
  time : Nat → Nat → Option Nat

/-- Travel times at and above this value mean "closed" (constants.h `inf_weight`). -/
def closed : Nat := 2147483647

/-- `x -a-> y`, entered at time `t`, takes `w`. -/
def TGraph.Arc (G : TGraph) (a x y t w : Nat) : Prop :=
  OutArc G.firstOut x a ∧ G.head[a]? = some y ∧ G.time a t = some w ∧ w < closed

/-- The vectors form an adjacency array with at most 2^30 nodes, all travel times are defined, and
overtaking by waiting is impossible (FIFO property; constant weights have it). -/
structure TGraph.WF (G : TGraph) : Prop where
  csr : IsCSR G.n G.firstOut G.head
  tail_length : G.tail.length = G.head.length
  tail_eq : ∀ (x a : Nat), OutArc G.firstOut x a → G.tail[a]? = some x
  nodes : G.n ≤ 2 ^ 30
  arcs : G.head.length < 2 ^ 32
  time_defined : ∀ (a t : Nat), a < G.head.length → ∃ w, G.time a t = some w
  fifo : ∀ (a t t' w' : Nat), t ≤ t' → G.time a t' = some w' → w' < closed →
    ∃ w, G.time a t = some w ∧ w < closed ∧ t + w ≤ t' + w'

/-- `Journey G s t p y d`: leaving `s` at time `t` along the arcs `p` one arrives in `y` at time `d`. -/
inductive Journey (G : TGraph) : Nat → Nat → List Nat → Nat → Nat → Prop
  | nil (s t : Nat) : Journey G s t [] s t
  | snoc {s t : Nat} {p : List Nat} {x d a y w : Nat} : Journey G s t p x d → G.Arc a x y d w →
      Journey G s t (p ++ [a]) y (d + w)

/-- State of a search as its user sees it. -/
structure Search where
  graph : TGraph
  /-- the sources with their departure times -/
  sources : List (Nat × Nat)
  /-- the settled nodes with their distances, in order -/
  settled : List (Nat × Nat)

def Search.fresh (G : TGraph) : Search := ⟨G, [], []⟩

/-- One can arrive in `y` at time `d`. -/
def Search.Arrives (s : Search) (y d : Nat) : Prop :=
  ∃ src ∈ s.sources, ∃ p, Journey s.graph src.1 src.2 p y d

/-- `d` is the earliest arrival time in `y`: the distance of `y` from the sources. -/
def Search.Distance (s : Search) (y d : Nat) : Prop :=
  s.Arrives y d ∧ ∀ d', s.Arrives y d' → d ≤ d'

def Search.IsSettled (s : Search) (y : Nat) : Prop := ∃ d, (y, d) ∈ s.settled

/-- The arrival times computed by the search fit into 32 bits. -/
def Search.NoOverflow (s : Search) : Prop :=
  ∀ x d a y w, s.Distance x d → s.graph.Arc a x y d w → d + w < 2 ^ 32

inductive DijOp
  | reset                                -- reset()
  | resetGraph (G : TGraph)              -- reset(first_out, tail, head); G.time is used from now on
  | addSource (id time : Nat)            -- add_source(id, time)
  | settle                               -- settle(get_weight)
  | isFinished                           -- is_finished()
  | wasNodeReached (x : Nat)             -- was_node_reached(x)
  | getDistanceTo (x : Nat)              -- get_distance_to(x)
  | getPathsTo (x : Nat)                 -- get_arc_path_to(x) and get_node_path_to(x)

inductive DijOut
  | unit
  | flag (b : Bool)
  | num (k : Nat)
  | node (x d : Nat)
  | paths (arcs nodes : List Nat)
deriving Repr, DecidableEq

/-- When may a call be made? Sources are distinct and added before the first `settle`. -/
def DijPre (s : Search) : DijOp → Prop
  | .reset => True
  | .resetGraph G => G.WF
  | .addSource id time => id < s.graph.n ∧ time < 2 ^ 32 ∧ s.settled = [] ∧ ∀ t, (id, t) ∉ s.sources
  | .settle => (∃ y d, s.Arrives y d ∧ ¬ s.IsSettled y) ∧ s.NoOverflow
  | .isFinished => True
  | .wasNodeReached x | .getDistanceTo x | .getPathsTo x => x < s.graph.n

/-- `nodes` are the nodes on the way from `src` along the arcs `p`: `src` and the heads of the arcs. -/
def NodesAlong (G : TGraph) (src : Nat) (p nodes : List Nat) : Prop :=
  nodes = src :: p.filterMap fun a => G.head[a]?

/-- What the calls mean. -/
def DijStep (s : Search) (op : DijOp) (out : DijOut) (s' : Search) : Prop :=
  match op with
  | .reset => out = .unit ∧ s' = Search.fresh s.graph
  | .resetGraph G => out = .unit ∧ s' = Search.fresh G
  | .addSource id time => out = .unit ∧ s' = { s with sources := s.sources ++ [(id, time)] }
  | .settle => ∃ x d, out = .node x d ∧ ¬ s.IsSettled x ∧ s.Distance x d ∧
      (∀ y d', (y, d') ∈ s.settled → d' ≤ d) ∧
      (∀ y d', s.Arrives y d' → ¬ s.IsSettled y → d ≤ d') ∧
      s' = { s with settled := s.settled ++ [(x, d)] }
  | .isFinished => s' = s ∧ ∃ b, out = .flag b ∧ (b = true ↔ ∀ y d, s.Arrives y d → s.IsSettled y)
  | .wasNodeReached x => s' = s ∧ ∃ b, out = .flag b ∧ (b = true ↔ s.IsSettled x)
  | .getDistanceTo x => s' = s ∧ ∃ k, out = .num k ∧
      ((s.IsSettled x ∧ s.Distance x k) ∨ (¬ s.IsSettled x ∧ k = closed))
  | .getPathsTo x => s' = s ∧ ∃ arcs nodes, out = .paths arcs nodes ∧
      ((¬ s.IsSettled x ∧ arcs = [] ∧ nodes = []) ∨
       ∃ src ∈ s.sources, ∃ d, Journey s.graph src.1 src.2 arcs x d ∧ s.Distance x d ∧
        s.IsSettled x ∧ NodesAlong s.graph src.1 arcs nodes ∧ nodes.Nodup)

/-- Constant weights: the arcs that are not closed. -/
def openArcs (firstOut head weight : List Nat) : ArcRel := fun a x y w =>
  csrArcs firstOut head weight a x y w ∧ w < closed

end Spec
