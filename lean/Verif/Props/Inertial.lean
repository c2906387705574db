import Verif.Proof.Inertial
import Verif.Props.Flow
import Verif.Props.Dissection
/-! # Property theorems C54 (nested_dissection.cpp: inertial flow)

`K` is the type of the coordinates with the comparison `lt` and the operations `add` and `sub`; nothing is
assumed about the operations, and `lt` has to be a strict weak order, which for `float` means that no NaN
appears. -/
namespace RK.Props
open Spec Nd

/-! ### An implementation of `std::nth_element` for the examples -/

/-- Insertion into a sorted list. -/
def insertSorted (less : Nat → Nat → Bool) (x : Nat) : List Nat → List Nat
  | [] => [x]
  | y :: l => if less x y then x :: y :: l else y :: insertSorted less x l

/-- `nth_element` by sorting everything. -/
def sortNthElement : Nth := fun less l _ => l.foldr (insertSorted less) []

theorem insertSorted_perm (less : Nat → Nat → Bool) (x : Nat) (l : List Nat) : (insertSorted less x l).Perm (x :: l) := by
  induction l with
  | nil => exact .refl _
  | cons y l ih =>
    unfold insertSorted
    split
    · exact .refl _
    · exact (List.Perm.cons y ih).trans (List.Perm.swap x y l)

theorem sortNthElement_perm (less : Nat → Nat → Bool) (l : List Nat) : (l.foldr (insertSorted less) []).Perm l := by
  induction l with
  | nil => exact .refl _
  | cons y l ih =>
    rw [List.foldr_cons]
    exact (insertSorted_perm less y _).trans (ih.cons y)

theorem insertSorted_pairwise {less : Nat → Nat → Bool} {P : Nat → Prop} (hw : StrictWeak less P) {x : Nat} (hx : P x)
    {l : List Nat} (hl : ∀ y ∈ l, P y) (h : l.Pairwise fun a b => less b a = false) :
    (insertSorted less x l).Pairwise fun a b => less b a = false := by
  induction l with
  | nil => simp [insertSorted]
  | cons y l ih =>
    rw [List.pairwise_cons] at h
    have hy := hl y List.mem_cons_self
    unfold insertSorted
    split
    · rename_i hlt
      refine List.pairwise_cons.2 ⟨?_, List.pairwise_cons.2 h⟩
      intro z hz
      rcases List.mem_cons.1 hz with rfl | hz'
      · cases hzx : less z x with
        | false => rfl
        | true =>
          have := hw.trans x z x hx hy hx hlt hzx
          rw [hw.irrefl x hx] at this; cases this
      · cases hzx : less z x with
        | false => rfl
        | true =>
          have := hw.trans z x y (hl z hz) hx hy hzx hlt
          rw [h.1 z hz'] at this; cases this
    · rename_i hlt
      refine List.pairwise_cons.2 ⟨?_, ih (fun z hz => hl z (List.mem_cons_of_mem _ hz)) h.2⟩
      intro z hz
      rcases List.mem_cons.1 ((insertSorted_perm less x l).mem_iff.1 hz) with rfl | hz'
      · exact Bool.eq_false_iff.2 hlt
      · exact h.1 z hz'

theorem sortNthElement_ok : NthOk sortNthElement := by
  intro less l k hw _
  have hp : (l.foldr (insertSorted less) []).Pairwise fun a b => less b a = false := by
    have key : ∀ l' : List Nat, (∀ x ∈ l', x ∈ l) → (l'.foldr (insertSorted less) []).Pairwise fun a b => less b a = false := by
      intro l'
      induction l' with
      | nil => intro _; exact List.Pairwise.nil
      | cons y l' ih =>
        intro h
        rw [List.foldr_cons]
        exact insertSorted_pairwise hw (h y List.mem_cons_self)
          (fun z hz => h z (List.mem_cons_of_mem _ ((sortNthElement_perm less l').mem_iff.1 hz)))
          (ih fun z hz => h z (List.mem_cons_of_mem _ hz))
    exact key l fun _ h => h
  refine ⟨sortNthElement_perm less l, ?_⟩
  show ∀ x ∈ (l.foldr (insertSorted less) []).take k, ∀ y ∈ (l.foldr (insertSorted less) []).drop k, less y x = false
  generalize l.foldr (insertSorted less) [] = r at hp
  rw [← List.take_append_drop k r, List.pairwise_append] at hp
  exact hp.2.2

/-- Integers as coordinates. -/
def intLess (a b : Int) : Bool := decide (a < b)

theorem intLess_weak : StrictWeak intLess fun _ => True := by
  constructor
  · intro a _; simp [intLess]
  · intro a b c _ _ _ h1 h2
    simp only [intLess, decide_eq_true_eq] at *
    omega
  · intro a b c _ _ _ h1 h2 h3 h4
    simp only [intLess, decide_eq_false_iff_not] at *
    omega

/-! ### The theorems -/

theorem direction_length {K : Type} {add sub : K → K → K} {lat lon : List K} {f : GraphFragment} {keys : List K}
    (hd : Direction add sub lat lon f keys) : keys.length = f.globalNodeId.length := by
  cases hd with
  | horizontal keys h => have := congrArg List.length h; simp at this; omega
  | vertical keys h => have := congrArg List.length h; simp at this; omega
  | mainDiagonal a b h h' =>
    have := congrArg List.length h
    have := congrArg List.length h'
    simp at *; omega
  | nextDiagonal a b h h' =>
    have := congrArg List.length h
    have := congrArg List.length h'
    simp at *; omega

theorem inertialCut_facts {K : Type} {lt : K → K → Bool} {add sub : K → K → K} {lat lon : List K} {f : GraphFragment}
    {n : Nat} {c : CutSide} (h : InertialCut lt add sub lat lon f n c) :
    c.nodeOnSideCount = c.isNodeOnSide.count true ∧ c.isNodeOnSide.length = f.globalNodeId.length ∧
      c.cutSize = leaving f c.isNodeOnSide := by
  obtain ⟨keys, src, tgt, hd, X, M⟩ := h.cut
  have hk := direction_length hd
  have := X.source_len
  have := X.target_len
  rcases M with M | M
  · exact ⟨M.nodes, by have := M.separates.len; omega, M.size⟩
  · exact ⟨M.nodes, by have := M.separates.len; omega, M.size⟩

/-- C54. For at least two nodes and a balance of at most 50 percent inertial flow returns a minimum cut
between the extreme nodes of one of the four directions that is at most as large as every cut between the
extreme nodes of each direction; each side has at least `min_balance` percent of the nodes (with the
product taken modulo `2^32`) and at least one node. -/
theorem C54_inertial_flow {K : Type} (lt : K → K → Bool) (hlt : StrictWeak lt fun _ => True) (add sub : K → K → K)
    (nth : Nth) (hnth : NthOk nth) (junk : Nat → Bool) (lat lon : List K) (f : GraphFragment) (hf : FragmentOk f)
    (hfit : FragmentFits f) (hn : 2 ≤ f.globalNodeId.length) (hlat : ∀ g ∈ f.globalNodeId, g < lat.length)
    (hlon : ∀ g ∈ f.globalNodeId, g < lon.length) (b : Nat) (hb : b ≤ 50) :
    ∃ c, inertialFlowBalance lt add sub nth junk lat lon b f = some c ∧
      InertialCut lt add sub lat lon f (max 1 (f.globalNodeId.length * b % 2 ^ 32 / 100)) c := by
  obtain ⟨c, e, h⟩ := inertialFlowBalance_spec hlt hnth junk add sub hf hfit.2 hn hlat hlon hb
  rw [sideSize_eq] at h
  exact ⟨c, e, h⟩

/-- C54. Below `2^32 / min_balance` nodes both sides of the cut have at least `min_balance` percent of all
nodes. -/
theorem C54_balance {K : Type} (lt : K → K → Bool) (hlt : StrictWeak lt fun _ => True) (add sub : K → K → K)
    (nth : Nth) (hnth : NthOk nth) (junk : Nat → Bool) (lat lon : List K) (f : GraphFragment) (hf : FragmentOk f)
    (hfit : FragmentFits f) (hn : 2 ≤ f.globalNodeId.length) (hlat : ∀ g ∈ f.globalNodeId, g < lat.length)
    (hlon : ∀ g ∈ f.globalNodeId, g < lon.length) (b : Nat) (hb : b ≤ 50)
    (hprod : f.globalNodeId.length * b < 2 ^ 32) (c : CutSide)
    (hc : inertialFlowBalance lt add sub nth junk lat lon b f = some c) :
    f.globalNodeId.length * b / 100 ≤ c.isNodeOnSide.count true ∧
      f.globalNodeId.length * b / 100 ≤ c.isNodeOnSide.count false ∧
      true ∈ c.isNodeOnSide ∧ false ∈ c.isNodeOnSide := by
  obtain ⟨c', e, h⟩ := C54_inertial_flow lt hlt add sub nth hnth junk lat lon f hf hfit hn hlat hlon b hb
  rw [hc] at e; cases e
  rw [Nat.mod_eq_of_lt hprod] at h
  have hcnt := inertialCut_facts h
  have hft := count_false_true c.isNodeOnSide
  have h1 := h.balance
  have h2 := h.small
  refine ⟨by omega, by omega, List.count_pos_iff.1 (by omega), List.count_pos_iff.1 (by omega)⟩

/-- The required size of the sides is computed with 32 bits: for 171798692 nodes a balance of 25 percent
asks for one node on each side. -/
theorem C54_large_graph_balance_violated :
    sideSize 171798692 25 = 1 ∧ ¬ 171798692 * 25 / 100 ≤ sideSize 171798692 25 := by decide +kernel

/-- The assertion in the selection of the extreme nodes fails for a balance above 50 percent, unless the
product is too small. -/
theorem C54_balance_above_half_aborts {K : Type} (lt : K → K → Bool) (add sub : K → K → K) (nth : Nth)
    (junk : Nat → Bool) (lat lon : List K) (f : GraphFragment) (b : Nat)
    (h : f.globalNodeId.length / 2 < f.globalNodeId.length * b % 2 ^ 32 / 100) :
    inertialFlowBalance lt add sub nth junk lat lon b f = none := by
  unfold inertialFlowBalance
  simp only [Option.bind_eq_bind]
  cases coords f lat with
  | none => rfl
  | some lats =>
    cases coords f lon with
    | none => rfl
    | some lons =>
      have : decide (sideSize f.nodeCount b ≤ f.nodeCount / 2) = false := by
        rw [sideSize_eq]
        have : f.nodeCount = f.globalNodeId.length := rfl
        rw [this]
        simp only [decide_eq_false_iff_not]
        omega
      simp only [Option.bind_some]
      unfold newCutter selectEnds
      rw [this]
      rfl

/-- The assertion in the selection of the extreme nodes fails for a single node. -/
theorem C54_single_node_aborts {K : Type} (lt : K → K → Bool) (add sub : K → K → K) (nth : Nth)
    (junk : Nat → Bool) (lat lon : List K) (f : GraphFragment) (b : Nat) (h : f.globalNodeId.length = 1) :
    inertialFlowBalance lt add sub nth junk lat lon b f = none := by
  unfold inertialFlowBalance
  simp only [Option.bind_eq_bind]
  cases coords f lat with
  | none => rfl
  | some lats =>
    cases coords f lon with
    | none => rfl
    | some lons =>
      have : decide (sideSize f.nodeCount b ≤ f.nodeCount / 2) = false := by
        rw [sideSize_eq]
        have : f.nodeCount = f.globalNodeId.length := rfl
        rw [this]
        simp only [decide_eq_false_iff_not]
        omega
      simp only [Option.bind_some]
      unfold newCutter selectEnds
      rw [this]
      rfl

theorem ratio_trans {a b c x y z : Nat} (hy : 0 < y) (h1 : a * y ≤ b * x) (h2 : b * z ≤ c * y) : a * z ≤ c * x := by
  have h3 : a * y * z ≤ b * x * z := Nat.mul_le_mul_right z h1
  have h4 : b * z * x ≤ c * y * x := Nat.mul_le_mul_right x h2
  apply Nat.le_of_mul_le_mul_right (c := y) _ hy
  calc a * z * y = a * y * z := by ring
    _ ≤ b * x * z := h3
    _ = b * z * x := by ring
    _ ≤ c * y * x := h4
    _ = c * x * y := by ring

/-- C54. The final cut is one of the cuts for 25, 33 and 40 percent, and none of the three has a smaller
ratio of cut size to the size of the smaller side. -/
theorem C54_best_ratio {K : Type} (lt : K → K → Bool) (hlt : StrictWeak lt fun _ => True) (add sub : K → K → K)
    (nth : Nth) (hnth : NthOk nth) (junk : Nat → Bool) (lat lon : List K) (f : GraphFragment) (hf : FragmentOk f)
    (hfit : FragmentFits f) (hn : 2 ≤ f.globalNodeId.length) (hlat : ∀ g ∈ f.globalNodeId, g < lat.length)
    (hlon : ∀ g ∈ f.globalNodeId, g < lon.length) :
    ∃ c, inertialFlow lt add sub nth junk lat lon f = some c ∧
      (∃ b ∈ [25, 33, 40], inertialFlowBalance lt add sub nth junk lat lon b f = some c) ∧
      ∀ b ∈ [25, 33, 40], ∀ d, inertialFlowBalance lt add sub nth junk lat lon b f = some d →
        c.cutSize * d.nodeOnSideCount ≤ d.cutSize * c.nodeOnSideCount := by
  obtain ⟨c1, e1, i1⟩ := C54_inertial_flow lt hlt add sub nth hnth junk lat lon f hf hfit hn hlat hlon 25 (by omega)
  obtain ⟨c2, e2, i2⟩ := C54_inertial_flow lt hlt add sub nth hnth junk lat lon f hf hfit hn hlat hlon 33 (by omega)
  obtain ⟨c3, e3, i3⟩ := C54_inertial_flow lt hlt add sub nth hnth junk lat lon f hf hfit hn hlat hlon 40 (by omega)
  have size : ∀ {n c}, InertialCut lt add sub lat lon f n c → c.cutSize < 2 ^ 32 ∧ c.nodeOnSideCount < 2 ^ 32 := by
    intro n c h
    obtain ⟨h1, h2, h3⟩ := inertialCut_facts h
    have h4 : leaving f c.isNodeOnSide ≤ (localArcs f).length := List.countP_le_length
    rw [localArcs_length hf] at h4
    obtain ⟨h5, h6⟩ := hfit
    have h7 := h.small
    have hu : u32 = 2 ^ 32 := rfl
    rw [hu] at h5 h6
    have : f.arcCount = f.tail.length := rfl
    exact ⟨by omega, by omega⟩
  have cmp : ∀ {n m c d}, InertialCut lt add sub lat lon f n c → InertialCut lt add sub lat lon f m d →
      (cheaper c d = true ↔ c.cutSize * d.nodeOnSideCount < d.cutSize * c.nodeOnSideCount) := by
    intro n m c d h1 h2
    obtain ⟨a1, a2⟩ := size h1
    obtain ⟨b1, b2⟩ := size h2
    have g1 : c.cutSize * d.nodeOnSideCount < 2 ^ 32 * 2 ^ 32 := Nat.mul_lt_mul'' a1 b2
    have g2 : d.cutSize * c.nodeOnSideCount < 2 ^ 32 * 2 ^ 32 := Nat.mul_lt_mul'' b1 a2
    unfold cheaper
    rw [Nat.mod_eq_of_lt (by omega), Nat.mod_eq_of_lt (by omega)]
    simp
  have p1 : 0 < c1.nodeOnSideCount := by have := i1.balance; omega
  have p2 : 0 < c2.nodeOnSideCount := by have := i2.balance; omega
  have p3 : 0 < c3.nodeOnSideCount := by have := i3.balance; omega
  have fin : ∀ c : CutSide, c.cutSize * c1.nodeOnSideCount ≤ c1.cutSize * c.nodeOnSideCount →
      c.cutSize * c2.nodeOnSideCount ≤ c2.cutSize * c.nodeOnSideCount →
      c.cutSize * c3.nodeOnSideCount ≤ c3.cutSize * c.nodeOnSideCount →
      ∀ b ∈ [25, 33, 40], ∀ d, inertialFlowBalance lt add sub nth junk lat lon b f = some d →
        c.cutSize * d.nodeOnSideCount ≤ d.cutSize * c.nodeOnSideCount := by
    intro c h1 h2 h3 b hb d hd
    simp only [List.mem_cons, List.not_mem_nil, or_false] at hb
    rcases hb with rfl | rfl | rfl
    · rw [e1] at hd; cases hd; exact h1
    · rw [e2] at hd; cases hd; exact h2
    · rw [e3] at hd; cases hd; exact h3
  have hall : inertialFlow lt add sub nth junk lat lon f =
      if cheaper c1 c2 && cheaper c1 c3 then some c1 else if cheaper c2 c3 then some c2 else some c3 := by
    unfold inertialFlow
    simp only [Option.bind_eq_bind]
    rw [e1, e2, e3]
    simp only [Option.bind_some]
  rw [hall]
  by_cases h12 : cheaper c1 c2 = true
  · by_cases h13 : cheaper c1 c3 = true
    · rw [h12, h13]
      simp only [Bool.and_self, if_true]
      exact ⟨c1, rfl, ⟨25, by simp, e1⟩, fin c1 (le_refl _) (le_of_lt ((cmp i1 i2).1 h12)) (le_of_lt ((cmp i1 i3).1 h13))⟩
    · have g13 : c3.cutSize * c1.nodeOnSideCount ≤ c1.cutSize * c3.nodeOnSideCount :=
        Nat.le_of_not_lt fun h => h13 ((cmp i1 i3).2 h)
      have g12 := le_of_lt ((cmp i1 i2).1 h12)
      have g32 := ratio_trans p1 g13 g12
      have h23 : cheaper c2 c3 = false := by
        refine Bool.eq_false_iff.2 fun h => ?_
        have := (cmp i2 i3).1 h
        omega
      rw [h12, Bool.eq_false_iff.2 h13, h23]
      simp only [Bool.and_false, Bool.false_eq_true, if_false]
      exact ⟨c3, rfl, ⟨40, by simp, e3⟩, fin c3 g13 g32 (le_refl _)⟩
  · have g21 : c2.cutSize * c1.nodeOnSideCount ≤ c1.cutSize * c2.nodeOnSideCount :=
      Nat.le_of_not_lt fun h => h12 ((cmp i1 i2).2 h)
    rw [Bool.eq_false_iff.2 h12]
    simp only [Bool.false_and, Bool.false_eq_true, if_false]
    by_cases h23 : cheaper c2 c3 = true
    · rw [h23]
      simp only [if_true]
      exact ⟨c2, rfl, ⟨33, by simp, e2⟩, fin c2 g21 (le_refl _) (le_of_lt ((cmp i2 i3).1 h23))⟩
    · have g32 : c3.cutSize * c2.nodeOnSideCount ≤ c2.cutSize * c3.nodeOnSideCount :=
        Nat.le_of_not_lt fun h => h23 ((cmp i2 i3).2 h)
      rw [Bool.eq_false_iff.2 h23]
      simp only [Bool.false_eq_true, if_false]
      exact ⟨c3, rfl, ⟨40, by simp, e3⟩, fin c3 (ratio_trans p2 g32 g21) g32 (le_refl _)⟩

/-- C54. The separators that inertial flow computes are good enough for nested dissection: on every
connected subfragment with at least two nodes there is one, and it is not empty. -/
theorem C54_separator {K : Type} (lt : K → K → Bool) (hlt : StrictWeak lt fun _ => True) (add sub : K → K → K)
    (nth : Nth) (hnth : NthOk nth) (junk : Nat → Bool) (lat lon : List K) (f : GraphFragment)
    (hlat : ∀ g ∈ f.globalNodeId, g < lat.length) (hlon : ∀ g ∈ f.globalNodeId, g < lon.length) :
    SeparatorOk (inertialSeparator lt add sub nth junk lat lon) f := by
  intro p hp hfit _ hcon hn hsub
  have hlat' : ∀ g ∈ p.globalNodeId, g < lat.length := fun g hg => hlat g (hsub.1 g hg)
  have hlon' : ∀ g ∈ p.globalNodeId, g < lon.length := fun g hg => hlon g (hsub.1 g hg)
  obtain ⟨c, e, ⟨b, hb, eb⟩, _⟩ := C54_best_ratio lt hlt add sub nth hnth junk lat lon p hp hfit hn hlat' hlon'
  obtain ⟨c', e', h⟩ := C54_inertial_flow lt hlt add sub nth hnth junk lat lon p hp hfit hn hlat' hlon' b (by
    simp only [List.mem_cons, List.not_mem_nil, or_false] at hb
    rcases hb with rfl | rfl | rfl <;> omega)
  rw [eb] at e'; cases e'
  obtain ⟨h1, h2, _⟩ := inertialCut_facts h
  have hft := count_false_true c.isNodeOnSide
  have h3 := h.balance
  have h4 := h.small
  have ht : true ∈ c.isNodeOnSide := List.count_pos_iff.1 (by omega)
  have hff : false ∈ c.isNodeOnSide := List.count_pos_iff.1 (by omega)
  have hside : (pickSmallerSide c).isNodeOnSide = c.isNodeOnSide ∨ (pickSmallerSide c).isNodeOnSide = c.isNodeOnSide.map not := by
    unfold pickSmallerSide
    simp only
    split
    · exact Or.inr rfl
    · exact Or.inl rfl
  have hlen : (pickSmallerSide c).isNodeOnSide.length = p.globalNodeId.length := by
    rcases hside with h | h <;> rw [h] <;> simp [h2]
  have ht' : true ∈ (pickSmallerSide c).isNodeOnSide := by
    rcases hside with h | h <;> rw [h]
    · exact ht
    · exact List.mem_map.2 ⟨false, hff, rfl⟩
  have hff' : false ∈ (pickSmallerSide c).isNodeOnSide := by
    rcases hside with h | h <;> rw [h]
    · exact hff
    · exact List.mem_map.2 ⟨true, ht, rfl⟩
  obtain ⟨sep, es, hl, _⟩ := C43_separator p hp _ hlen
  refine ⟨sep, ?_, hl, C43_separator_not_empty p hp hcon _ sep hlen ht' hff' es⟩
  unfold inertialSeparator
  simp only [Option.bind_eq_bind]
  rw [e, Option.bind_some, es]

/-- C54. For every graph with at least one node and a coordinate for each node the order by inertial flow
exists and is a permutation of the nodes. -/
theorem C54_order {K : Type} (lt : K → K → Bool) (hlt : StrictWeak lt fun _ => True) (add sub : K → K → K)
    (nth : Nth) (hnth : NthOk nth) (junk : Nat → Bool) (junk' : Nat → Word) (n : Nat) (tail head : List Nat)
    (lat lon : List K) (hlat : n ≤ lat.length) (hlon : n ≤ lon.length) (hl : tail.length = head.length)
    (ht : ∀ x ∈ tail, x < n) (hh : ∀ x ∈ head, x < n) (hm : 2 * (inputArcs tail head).length < 2 ^ 32)
    (h0 : 0 < n) (hn : n < 2 ^ 32) (depth : Nat) (hd : 2 * (inputArcs tail head).length < depth) :
    ∃ order, inertialOrder lt add sub nth junk junk' lat lon depth n tail head = some order ∧
      order.Perm (List.range n) := by
  obtain ⟨f, e, h1, h2, h3, _⟩ := C44_make_graph_fragment n tail head hl ht hh hm
  have hla := localArcs_length h1
  rw [h3.length_eq, List.length_append, List.length_map] at hla
  obtain ⟨order, eo, hp⟩ := C41_order_of_graph n tail head hl ht hh hm h0 hn f e
    (inertialSeparator lt add sub nth junk lat lon)
    (C54_separator lt hlt add sub nth hnth junk lat lon f
      (by intro g hg; rw [h2, List.mem_range] at hg; omega) (by intro g hg; rw [h2, List.mem_range] at hg; omega))
    junk' depth (by have : f.arcCount = f.tail.length := rfl; omega)
  refine ⟨order, ?_, hp⟩
  unfold inertialOrder
  simp only [Option.bind_eq_bind]
  rw [e, Option.bind_some, eo]

/-! ### Examples -/

/-- The square with a diagonal of C42, at the corners of a square. -/
def squareLat : List Int := [0, 0, 10, 10]
def squareLon : List Int := [0, 10, 0, 10]

theorem squareFragment_fits : FragmentFits squareFragment := ⟨by decide, by decide⟩

example : ∃ c, inertialFlowBalance intLess (· + ·) (· - ·) sortNthElement (fun _ => false) squareLat squareLon 25 squareFragment = some c ∧
    InertialCut intLess (· + ·) (· - ·) squareLat squareLon squareFragment 1 c :=
  C54_inertial_flow intLess intLess_weak (· + ·) (· - ·) sortNthElement sortNthElement_ok (fun _ => false) squareLat squareLon
    squareFragment squareFragment_ok squareFragment_fits (by decide) (by decide) (by decide) 25 (by decide)

/-- Only the node 3 is on the side; the cut has two arcs. -/
example : inertialFlowBalance intLess (· + ·) (· - ·) sortNthElement (fun _ => false) squareLat squareLon 25 squareFragment =
    some ⟨1, 2, [false, false, false, true]⟩ := by decide +kernel

example : 4 * 25 / 100 ≤ ([false, false, false, true] : List Bool).count true :=
  (C54_balance intLess intLess_weak (· + ·) (· - ·) sortNthElement sortNthElement_ok (fun _ => false) squareLat squareLon
    squareFragment squareFragment_ok squareFragment_fits (by decide) (by decide) (by decide) 25 (by decide) (by decide)
    ⟨1, 2, [false, false, false, true]⟩ (by decide +kernel)).1

/-- 75 percent of four nodes are more than half. -/
example : inertialFlowBalance intLess (· + ·) (· - ·) sortNthElement (fun _ => false) squareLat squareLon 75 squareFragment = none :=
  C54_balance_above_half_aborts _ _ _ _ _ _ _ _ _ (by decide)

example : inertialFlow intLess (· + ·) (· - ·) sortNthElement (fun _ => false) squareLat squareLon squareFragment =
    some ⟨1, 2, [false, false, false, true]⟩ := by decide +kernel

example : SeparatorOk (inertialSeparator intLess (· + ·) (· - ·) sortNthElement (fun _ => false) squareLat squareLon) squareFragment :=
  C54_separator intLess intLess_weak (· + ·) (· - ·) sortNthElement sortNthElement_ok (fun _ => false) squareLat squareLon
    squareFragment (by decide) (by decide)

example : ∃ order, inertialOrder intLess (· + ·) (· - ·) sortNthElement (fun _ => false) (fun _ => 0) squareLat squareLon 20 4
    [0, 0, 1, 1, 2] [1, 2, 2, 3, 3] = some order ∧ order.Perm (List.range 4) :=
  C54_order intLess intLess_weak (· + ·) (· - ·) sortNthElement sortNthElement_ok (fun _ => false) (fun _ => 0) 4 [0, 0, 1, 1, 2] [1, 2, 2, 3, 3]
    squareLat squareLon (by decide) (by decide) rfl (by decide) (by decide) (by decide) (by decide) (by decide) 20 (by decide)

end RK.Props
