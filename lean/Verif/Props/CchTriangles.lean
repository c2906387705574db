import Verif.Proof.CchTriangles
import Verif.Proof.CchOk
/-! # Property theorems C97 (customizable_contraction_hierarchy.cpp:45-193, enumeration of triangles) -/
namespace RK.Props
open RK _root_.Spec

/-- C97. For every CCH that can be built and each of its up arcs the three enumerations call the callback once for each
triangle that has the arc as bottom, mid or top arc, and for nothing else, in increasing order of the third node, until
the callback aborts; they read nothing outside of the arrays. This is for every callback, also for one with a state. -/
theorem C97_enumerations (order tail head : List Nat) (callable filter : Bool) (junk : Nat → Nat → Word) (c : Cch)
    (h : CchInput order tail head callable filter) (hb : Cch.build order tail head callable filter junk = some c)
    (a : Nat) (ha : a < c.cchArcCount) :
    Enumerates c (fun u => u.bottomArc = a) (·.topNode) (fun _ => c.forallUpper a) ∧
    Enumerates c (fun u => u.midArc = a) (·.midNode) (fun _ => c.forallIntermediate a) ∧
    Enumerates c (fun u => u.topArc = a) (·.bottomNode) (fun _ => c.forallLower a) := by
  obtain ⟨rt, rh, U, T, H, h1, h2, h3, h4, h5, h6, h7, _⟩ := cch_built h hb
  have hlen := h7.graph.up.sorted.1
  obtain ⟨y, hy⟩ := rd_isSome (v := c.upHead) (i := a) ha
  obtain ⟨x, hx⟩ := rd_isSome (v := c.upTail) (i := a) (by rw [hlen]; exact ha)
  exact ⟨h7.graph.forallUpper_spec hx hy, h7.graph.forallIntermediate_spec hx hy, h7.graph.forallLower_spec hx hy⟩

/-- C97. The nodes and the arcs of a triangle are numbered from the bottom to the top. -/
theorem C97_numbering (order tail head : List Nat) (callable filter : Bool) (junk : Nat → Nat → Word) (c : Cch)
    (h : CchInput order tail head callable filter) (hb : Cch.build order tail head callable filter junk = some c)
    (u : TriCall) (hu : Triangle c u) :
    u.bottomNode < u.midNode ∧ u.midNode < u.topNode ∧ u.bottomArc < u.midArc ∧ u.midArc < u.topArc := by
  obtain ⟨rt, rh, U, T, H, h1, h2, h3, h4, h5, h6, h7, _⟩ := cch_built h hb
  exact h7.graph.order hu

/-- C97. No assertion of `TriangleVerifier` fails in the three loops at the end of the constructor (which are commented
out in the code). -/
theorem C97_verifier_accepts (order tail head : List Nat) (callable filter : Bool) (junk : Nat → Nat → Word) (c : Cch)
    (h : CchInput order tail head callable filter) (hb : Cch.build order tail head callable filter junk = some c)
    (a : Nat) (ha : a < c.cchArcCount) :
    c.forallUpper a c.verifier () = some ((), true) ∧ c.forallIntermediate a c.verifier () = some ((), true) ∧
    c.forallLower a c.verifier () = some ((), true) := by
  obtain ⟨⟨l1, p1, _, q1⟩, ⟨l2, p2, _, q2⟩, ⟨l3, p3, _, q3⟩⟩ :=
    C97_enumerations order tail head callable filter junk c h hb a ha
  obtain ⟨rt, rh, U, T, H, h1, h2, h3, h4, h5, h6, h7, _⟩ := cch_built h hb
  have e1 := q1 Unit c.verifier ()
  have e2 := q2 Unit c.verifier ()
  have e3 := q3 Unit c.verifier ()
  rw [visit_true fun u hu => h7.graph.verify ((p1 u).1 hu).1] at e1
  rw [visit_true fun u hu => h7.graph.verify ((p2 u).1 hu).1] at e2
  rw [visit_true fun u hu => h7.graph.verify ((p3 u).1 hu).1] at e3
  exact ⟨e1, e2, e3⟩

private def exTail : List Nat := [0, 1, 2, 3, 0, 1, 1]
private def exHead : List Nat := [1, 2, 3, 0, 1, 1, 0]
private def exOrder : List Nat := [3, 1, 0, 2]

example : CchInput exOrder exTail exHead true false := by
  refine ⟨by unfold IsPermutation; decide, by decide, by decide, by decide, by decide, by decide, Or.inl rfl⟩

/-- A callback that collects the calls and aborts after `k` of them. -/
private def collect (k : Nat) : TriCallback (List TriCall) := fun s u => some (s ++ [u], decide (s.length + 1 < k))

set_option maxRecDepth 10000 in
example : ((Cch.build exOrder exTail exHead true false (fun _ _ => 0xAAAAAAAAAAAAAAAA)).bind fun c => do
      let u ← c.forallUpper 0 (collect 5) []
      let m ← c.forallIntermediate 1 (collect 5) []
      let l ← c.forallLower 4 (collect 5) []
      let b ← c.forallLower 4 (collect 1) []
      some [u, m, l, b]) =
    some [([⟨0, 1, 4, 0, 2, 3⟩], true), ([⟨0, 1, 4, 0, 2, 3⟩], true),
      ([⟨0, 1, 4, 0, 2, 3⟩, ⟨2, 3, 4, 1, 2, 3⟩], true), ([⟨0, 1, 4, 0, 2, 3⟩], false)] := by decide +kernel

end RK.Props
