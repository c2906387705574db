import Verif.Spec.Fragment
/-! # Specification vocabulary for nested dissection

Nothing here refers to the functions of the model. -/
namespace Spec
open RK

/-- `p` is made of nodes and arcs of `f`. -/
def Subfragment (p f : GraphFragment) : Prop :=
  (∀ x ∈ p.globalNodeId, x ∈ f.globalNodeId) ∧ ∀ e ∈ globalArcs p, e ∈ globalArcs f

/-- What `compute_separator` must do for the decomposition of `f`: on every valid connected subfragment
of `f` with at least two nodes it returns one bit for each node, and some bit is set. -/
def SeparatorOk (sep : GraphFragment → Option (List Bool)) (f : GraphFragment) : Prop :=
  ∀ p, FragmentOk p → FragmentFits p → p.globalNodeId.Nodup → ConnectedFragment p → 2 ≤ p.globalNodeId.length →
    Subfragment p f → ∃ bits, sep p = some bits ∧ bits.length = p.globalNodeId.length ∧ true ∈ bits

/-- `q` is `p` without the arcs that have a marked end. -/
def WithoutSeparator (p : GraphFragment) (bits : List Bool) (q : GraphFragment) : Prop :=
  q.globalNodeId = p.globalNodeId ∧ localArcs q =
    (localArcs p).filter fun e => bits[e.1]? == some false && bits[e.2]? == some false

/-- A nested grouping of nodes: groups, followed by nodes that are in none of them. -/
inductive DissTree where
  | node (parts : List DissTree) (last : List Nat)

mutual
/-- All nodes, groups first. -/
def DissTree.order : DissTree → List Nat
  | .node parts last => DissTree.orders parts ++ last
/-- All nodes of several trees, one tree after the other. -/
def DissTree.orders : List DissTree → List Nat
  | [] => []
  | t :: ts => t.order ++ DissTree.orders ts
end

/-- The nodes in none of the groups. -/
def DissTree.last : DissTree → List Nat
  | .node _ last => last

mutual
/-- Number of groups, including the outermost one. -/
def DissTree.size : DissTree → Nat
  | .node parts _ => DissTree.sizes parts + 1
def DissTree.sizes : List DissTree → Nat
  | [] => 0
  | t :: ts => t.size + DissTree.sizes ts
end

/-- The grouping is a nested dissection of `f`: the groups are the connected components of `f` with at
least two nodes (`c.1` for each group), so every node belongs to one of them or comes last, and every arc
between different nodes lies in one of them.  Each group is dissected again after removing (`c.2.1`) the
arcs at the nodes of the separator that `sep` returned for it, and the nodes of the separator come last
in the group. -/
inductive Dissects (sep : GraphFragment → Option (List Bool)) : GraphFragment → DissTree → Prop
  | mk (f : GraphFragment) (comps : List (GraphFragment × GraphFragment × DissTree)) (last : List Nat)
    (connected : ∀ c ∈ comps, FragmentOk c.1 ∧ ConnectedFragment c.1 ∧ 2 ≤ c.1.globalNodeId.length)
    (nodes : (comps.flatMap (·.1.globalNodeId) ++ last).Perm f.globalNodeId)
    (arcs_in : ∀ c ∈ comps, ∀ e ∈ globalArcs c.1, e ∈ globalArcs f)
    (arcs : ∀ e ∈ globalArcs f, e.1 ≠ e.2 → ∃ c ∈ comps, e ∈ globalArcs c.1)
    (separated : ∀ c ∈ comps, ∃ bits, sep c.1 = some bits ∧ WithoutSeparator c.1 bits c.2.1 ∧
      ∀ x : Nat, bits[x]? = some true → ∃ id ∈ c.2.2.last, c.1.globalNodeId[x]? = some id)
    (rec : ∀ c ∈ comps, Dissects sep c.2.1 c.2.2) :
    Dissects sep f (.node (comps.map (·.2.2)) last)

mutual
/-- Entry `i` of the vector `tree` describes the grouping, whose nodes are at the positions from `b` on:
`first` and `last` are the bounds of the positions of the last nodes, the entries of the groups start
with `left_child` and continue with `right_sibling`; 0 is the end. -/
def TreeIs (tree : List Nd.DecompNode) : Nat → Nat → DissTree → Prop
  | i, b, .node parts last => ∃ x, tree[i]? = some x ∧ ChildrenAre tree x.leftChild b x.first parts ∧
      x.last = x.first + last.length
/-- The entries from `c` on describe groups, whose nodes are at the positions from `b` to `e`. -/
def ChildrenAre (tree : List Nd.DecompNode) : Nat → Nat → Nat → List DissTree → Prop
  | c, b, e, [] => c = 0 ∧ b = e
  | c, b, e, t :: ts => c ≠ 0 ∧ TreeIs tree c b t ∧ ∃ x, tree[c]? = some x ∧
      ChildrenAre tree x.rightSibling x.last e ts
end

end Spec
