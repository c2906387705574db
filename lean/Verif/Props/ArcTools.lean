import Verif.Proof.ArcTools
import Mathlib.Algebra.Order.Ring.Rat
import Mathlib.Algebra.Field.Rat
/-! # C76: weights, Graphviz documents and drawings for the arcs of a graph -/
namespace RK.Props
open RK _root_.Spec

/-- For a valid graph whose nodes all have coordinates, each arc gets the distance of its end points as weight.
Partial: other input is not always reported, see `C76_weights_undefined`. -/
theorem C76_weights_partial {α : Type} (dist : α → α → α → α → Option Nat) (n : Nat) (firstOut head : List Nat) (latitude longitude : List α)
    (h : IsCSR n firstOut head) (h1 : latitude.length = n) (h2 : longitude.length = n)
    (hd : ∀ a b c d, a ∈ latitude → b ∈ longitude → c ∈ latitude → d ∈ longitude → dist a b c d ≠ none) :
    ∃ weight, toolGeoWeights dist firstOut head latitude longitude = .ok weight ∧ weight.length = head.length ∧
      ∀ (i x y : Nat) (a b c d : α), OutArc firstOut x i → head[i]? = some y → latitude[x]? = some a → longitude[x]? = some b →
        latitude[y]? = some c → longitude[y]? = some d → weight[i]? = dist a b c d := by
  obtain ⟨w, e, hl, hw⟩ := toolGeoWeights_ok (dist := dist) (lat := latitude) (lon := longitude) h (fun x i hx => by
    obtain ⟨y, a, b, c, d, _, ha, hb, hc, hdd, e⟩ := arcDist_isSome (dist := dist) h (Nat.le_of_eq h1.symm) (Nat.le_of_eq h2.symm) hx
    rw [e]
    exact Option.isSome_iff_ne_none.2 (hd a b c d (List.mem_of_getElem? ha) (List.mem_of_getElem? hb) (List.mem_of_getElem? hc) (List.mem_of_getElem? hdd)))
  refine ⟨w, e, hl, ?_⟩
  intro i x y a b c d hx hy ha hb hc hdd
  obtain ⟨y', a', b', c', d', hy', ha', hb', hc', hd', e'⟩ := arcDist_isSome (dist := dist) h (Nat.le_of_eq h1.symm) (Nat.le_of_eq h2.symm) hx
  have q1 : some y = some y' := hy.symm.trans hy'
  cases q1
  have q2 : some a = some a' := ha.symm.trans ha'
  have q3 : some b = some b' := hb.symm.trans hb'
  have q4 : some c = some c' := hc.symm.trans hc'
  have q5 : some d = some d' := hdd.symm.trans hd'
  cases q2
  cases q3
  cases q4
  cases q5
  exact (hw x i hx).trans e'

/-- An invalid graph is rejected. -/
theorem C76_weights_rejects {α : Type} (dist : α → α → α → α → Option Nat) (firstOut head : List Nat) (latitude longitude : List α)
    (hne : firstOut ≠ []) (h : ¬ ∃ n, IsCSR n firstOut head) : toolGeoWeights dist firstOut head latitude longitude = .error := by
  rcases checkIfGraphIsValid_spec (hd := head) hne with ⟨_, h'⟩ | ⟨e, _⟩
  · exact absurd ⟨_, h'⟩ h
  · unfold toolGeoWeights
    rw [e]
    rfl

/-- Finding: the lengths of the coordinate vectors are not checked. If an end point of an arc has no coordinates then the
behaviour is undefined; likewise if the distance of two neighbours is not a number or does not fit. -/
theorem C76_weights_undefined {α : Type} (dist : α → α → α → α → Option Nat) (n : Nat) (firstOut head : List Nat) (latitude longitude : List α)
    (h : IsCSR n firstOut head) (i x y : Nat) (hx : OutArc firstOut x i) (hy : head[i]? = some y)
    (hbad : latitude.length ≤ x ∨ longitude.length ≤ x ∨ latitude.length ≤ y ∨ longitude.length ≤ y ∨
      ∃ a b c d, latitude[x]? = some a ∧ longitude[x]? = some b ∧ latitude[y]? = some c ∧ longitude[y]? = some d ∧ dist a b c d = none) :
    toolGeoWeights dist firstOut head latitude longitude = .ub := by
  refine toolGeoWeights_ub h hx ?_
  have hy' : rd head i = some y := hy
  unfold arcDist
  simp only [hy', Option.bind_eq_bind, Option.bind_some]
  rcases hbad with hb | hb | hb | hb | ⟨a, b, c, d, ha, hb, hc, hd, e⟩
  · have : rd latitude x = none := List.getElem?_eq_none hb
    rw [this]; rfl
  · have : rd longitude x = none := List.getElem?_eq_none hb
    rw [this]
    cases rd latitude x <;> rfl
  · have : rd latitude y = none := List.getElem?_eq_none hb
    rw [this]
    cases rd latitude x
    · rfl
    · cases rd longitude x <;> rfl
  · have : rd longitude y = none := List.getElem?_eq_none hb
    rw [this]
    cases rd latitude x
    · rfl
    · cases rd longitude x
      · rfl
      · cases rd latitude y <;> rfl
  · have ha' : rd latitude x = some a := ha
    have hb' : rd longitude x = some b := hb
    have hc' : rd latitude y = some c := hc
    have hd' : rd longitude y = some d := hd
    simp only [ha', hb', hc', hd', Option.bind_some]
    exact e

/-- The Graphviz document of a valid graph contains each arc with its end points and its weight, by increasing id.
Partial: other input is not reported, see `C76_dot_undefined_iff`. -/
theorem C76_dot_partial (n : Nat) (firstOut head weight : List Nat) (h : IsCSR n firstOut head) (hw : weight.length = head.length) :
    ∃ arcs, toolDot firstOut head weight = some (dotDocument arcs) ∧ arcs.length = head.length ∧
      ∀ i x y w, arcs[i]? = some (x, y, w) ↔ csrArcs firstOut head weight i x y w :=
  ⟨_, toolDot_ok h hw, arcTriples_length h weight, arcTriples_get h hw⟩

/-- The document determines the graph if the number of nodes is known. -/
theorem C76_dot_faithful (n : Nat) (firstOut head weight firstOut' head' weight' : List Nat) (h : IsCSR n firstOut head) (hw : weight.length = head.length)
    (h' : IsCSR n firstOut' head') (hw' : weight'.length = head'.length) (he : toolDot firstOut head weight = toolDot firstOut' head' weight') :
    firstOut = firstOut' ∧ head = head' ∧ weight = weight' := by
  rw [toolDot_ok h hw, toolDot_ok h' hw'] at he
  exact graph_of_arcs h hw h' hw' (dotDocument_injective (Option.some.inj he))

/-- Finding: nothing is checked. The behaviour is undefined if and only if there is no `first_out` or an id is too large for
one of the vectors. -/
theorem C76_dot_undefined_iff (firstOut head weight : List Nat) :
    toolDot firstOut head weight = none ↔ firstOut = [] ∨ ∃ x i, OutArc firstOut x i ∧ (head.length ≤ i ∨ weight.length ≤ i) :=
  toolDot_none

/-- Finding: isolated nodes at the end are not in the document, so the number of nodes is lost. -/
theorem C76_dot_isolated_nodes_lost : toolDot [0, 1, 1] [1] [7] = toolDot [0, 1, 1, 1] [1] [7] ∧
    toolDot [0, 1, 1] [1] [7] = some "digraph G{0 -> 1[label=\"7\"];\n}\n".toList := by decide +kernel

/-- The drawing of a valid graph, whose nodes are not all on the same latitude or longitude, has one line for each arc: from
the position of its tail to the position of its head. All of it is inside of the square from 0 to 300, north is up. (Exact
arithmetic; the `float`s of the program are rounded.)
Partial: see `C76_svg_same_latitude_not_a_number` and `C76_svg_undefined`. -/
theorem C76_svg_partial {K : Type} [Field K] [LinearOrder K] [IsStrictOrderedRing K] (n : Nat) (firstOut head : List Nat) (latitude longitude : List K)
    (h : IsCSR n firstOut head) (h1 : latitude.length = n) (h2 : longitude.length = n)
    (hlat : ∃ a ∈ latitude, ∃ b ∈ latitude, a ≠ b) (hlon : ∃ a ∈ longitude, ∃ b ∈ longitude, a ≠ b) :
    ∃ lines, toolSvg firstOut head latitude longitude = some lines ∧ lines.length = head.length ∧
      ∀ (i x y : Nat) (a b c d : K), OutArc firstOut x i → head[i]? = some y → latitude[x]? = some a → longitude[x]? = some b →
        latitude[y]? = some c → longitude[y]? = some d →
        ∃ x1 y1 x2 y2, lines[i]? = some ⟨some x1, some y1, some x2, some y2⟩ ∧ OnScale longitude b x1 ∧ OnScale latitude a (300 - y1) ∧
          OnScale longitude d x2 ∧ OnScale latitude c (300 - y2) ∧ ∀ z ∈ [x1, y1, x2, y2], 0 ≤ z ∧ z ≤ 300 := by
  have spread : ∀ {v : List K} {lo hi : K}, (∃ a ∈ v, ∃ b ∈ v, a ≠ b) → (∀ y ∈ v, lo ≤ y ∧ y ≤ hi) → hi - lo ≠ 0 := by
    rintro v lo hi ⟨a, ha, b, hb, hab⟩ hv e
    have e' : hi = lo := sub_eq_zero.1 e
    subst e'
    exact hab ((le_antisymm (hv a ha).2 (hv a ha).1).trans (le_antisymm (hv b hb).1 (hv b hb).2))
  obtain ⟨slat, lo, hi, e1, l1, m1, m2, m3, g1⟩ := scaleTo300_ok (v := latitude) (by rintro rfl; obtain ⟨a, ha, _⟩ := hlat; cases ha)
  obtain ⟨slon, lo', hi', e2, l2, m4, m5, m6, g2⟩ := scaleTo300_ok (v := longitude) (by rintro rfl; obtain ⟨a, ha, _⟩ := hlon; cases ha)
  obtain ⟨ls, e, hl, hline⟩ := toolSvg_ok h e1 e2 (by omega) (by omega)
  refine ⟨ls, e, hl, ?_⟩
  intro i x y a b c d hx hy ha hb hc hd
  obtain ⟨x1, y1, x2, y2, r1, r2, r3, r4, hi'⟩ := hline x y i hx hy
  rw [g2 x b hb, if_neg (spread hlon m6)] at r1
  rw [g1 x a ha, if_neg (spread hlat m3)] at r2
  rw [g2 y d hd, if_neg (spread hlon m6)] at r3
  rw [g1 y c hc, if_neg (spread hlat m3)] at r4
  cases r1
  cases r2
  cases r3
  cases r4
  have s1 := onScale_of (x := b) m4 m5 m6 (spread hlon m6)
  have s2 := onScale_of (x := a) m1 m2 m3 (spread hlat m3)
  have s3 := onScale_of (x := d) m4 m5 m6 (spread hlon m6)
  have s4 := onScale_of (x := c) m1 m2 m3 (spread hlat m3)
  refine ⟨_, _, _, _, hi', s1, by rwa [sub_sub_cancel], s3, by rwa [sub_sub_cancel], ?_⟩
  have b1 := onScale_bounds (List.mem_of_getElem? hb) hlon s1
  have b2 := onScale_bounds (List.mem_of_getElem? ha) hlat s2
  have b3 := onScale_bounds (List.mem_of_getElem? hd) hlon s3
  have b4 := onScale_bounds (List.mem_of_getElem? hc) hlat s4
  intro z hz
  simp only [List.mem_cons, List.not_mem_nil, or_false] at hz
  rcases hz with rfl | rfl | rfl | rfl
  · exact b1
  · exact ⟨sub_nonneg.2 b2.2, sub_le_self _ b2.1⟩
  · exact b3
  · exact ⟨sub_nonneg.2 b4.2, sub_le_self _ b4.1⟩

/-- Finding: if all nodes have the same latitude (for example if there is only one node) then no line has proper
coordinates: they are not numbers. -/
theorem C76_svg_same_latitude_not_a_number {K : Type} [Field K] [LinearOrder K] [IsStrictOrderedRing K] (n : Nat) (firstOut head : List Nat)
    (latitude longitude : List K) (h : IsCSR n firstOut head) (h1 : latitude.length = n) (h2 : longitude.length = n) (hn : n ≠ 0)
    (hlat : ∀ a ∈ latitude, ∀ b ∈ latitude, a = b) :
    ∃ lines, toolSvg firstOut head latitude longitude = some lines ∧ lines.length = head.length ∧
      ∀ (i x y : Nat), OutArc firstOut x i → head[i]? = some y → ∃ l, lines[i]? = some l ∧ l.y1 = none ∧ l.y2 = none := by
  obtain ⟨slat, lo, hi, e1, l1, m1, m2, m3, g1⟩ := scaleTo300_ok (v := latitude) (by rintro rfl; exact hn h1.symm)
  obtain ⟨slon, _, _, e2, l2, _⟩ := scaleTo300_ok (v := longitude) (by rintro rfl; exact hn h2.symm)
  obtain ⟨ls, e, hl, hline⟩ := toolSvg_ok h e1 e2 (by omega) (by omega)
  refine ⟨ls, e, hl, ?_⟩
  intro i x y hx hy
  obtain ⟨x1, y1, x2, y2, r1, r2, r3, r4, hi'⟩ := hline x y i hx hy
  have h0 : hi - lo = 0 := sub_eq_zero.2 (hlat hi m2 lo m1)
  have hnone : ∀ {j z}, rd slat j = some z → z = none := by
    intro j z hz
    have hj := (rd_eq_some.1 hz).1
    obtain ⟨v, hv⟩ := rd_isSome (v := latitude) (i := j) (by omega)
    rw [g1 j v hv, if_pos h0] at hz
    cases hz
    rfl
  exact ⟨_, hi', by rw [hnone r2]; rfl, by rw [hnone r4]; rfl⟩

/-- Finding: without nodes, and if an end point of an arc has no coordinates, the behaviour of the drawing tool is undefined. -/
theorem C76_svg_undefined {K : Type} [Field K] [LinearOrder K] (firstOut head : List Nat) (latitude longitude : List K)
    (hbad : latitude = [] ∨ ∃ i x y, OutArc firstOut x i ∧ head[i]? = some y ∧
      (latitude.length ≤ x ∨ longitude.length ≤ x ∨ latitude.length ≤ y ∨ longitude.length ≤ y)) :
    toolSvg firstOut head latitude longitude = none := by
  rcases hbad with rfl | ⟨i, x, y, hx, hy, hn⟩
  · rfl
  · exact toolSvg_none hx hy hn

/-! ### Examples -/

/-- Three nodes; the third has no arcs. -/
theorem arcToolsGraph : IsCSR 3 [0, 2, 3, 3] [1, 2, 0] := by
  refine ⟨rfl, ?_, rfl, rfl, ?_⟩
  · intro x b e hb he
    have hx : x + 1 < 4 := (List.getElem?_eq_some_iff.1 he).1
    obtain rfl | rfl | rfl : x = 0 ∨ x = 1 ∨ x = 2 := by omega
    all_goals (cases hb; cases he; decide)
  · intro a y hy
    exact (by decide : ∀ y ∈ [1, 2, 0], y < 3) y (List.mem_of_getElem? hy)

example : toolGeoWeights (fun a b c d : Int => some ((a - c).natAbs + (b - d).natAbs)) [0, 2, 3, 3] [1, 2, 0] [5, 7, -1] [3, 3, 9] = .ok [2, 12, 2] := by
  decide +kernel

example : OutArc [0, 2, 3, 3] 0 1 := ⟨0, 2, rfl, rfl, by decide, by decide⟩

example : toolGeoWeights (fun a b c d : Int => some ((a - c).natAbs + (b - d).natAbs)) [0, 2, 3, 3] [1, 2, 0] [5, 7] [3, 3, 9] = .ub := by
  decide +kernel

example : toolDot [0, 2, 3, 3] [1, 2, 0] [10, 0, 7] =
    some "digraph G{0 -> 1[label=\"10\"];\n0 -> 2[label=\"0\"];\n1 -> 0[label=\"7\"];\n}\n".toList := by decide +kernel

/-- The hypotheses of `C76_svg_partial` hold for this graph with rational coordinates. -/
example : (∃ a ∈ ([5, 7, -1] : List ℚ), ∃ b ∈ ([5, 7, -1] : List ℚ), a ≠ b) ∧ (∃ a ∈ ([3, 3, 9] : List ℚ), ∃ b ∈ ([3, 3, 9] : List ℚ), a ≠ b) :=
  ⟨⟨5, by simp, 7, by simp, by decide⟩, ⟨3, by simp, 9, by simp, by decide⟩⟩

end RK.Props
