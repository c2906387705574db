import Verif.Proof.Balanced
import Verif.Spec.Flow
/-! # The cuts of a finished flow -/
namespace RK
open Spec Nd BitVector

theorem at_iff {B : List Bool} {x : Nat} : at' B x = true ↔ B[x]? = some true := by
  by_cases h : x < B.length
  · rw [at_lt h, List.getElem?_eq_getElem h]
    simp
  · rw [at_ge (by omega), List.getElem?_eq_none (by omega)]
    simp

theorem endsOk_ends {f : GraphFragment} {src tgt : List Bool} (h : EndsOk f src tgt) : Ends f src tgt := by
  refine ⟨h.source_len, h.target_len, ?_⟩
  intro x hx
  cases ht : at' tgt x with
  | false => rfl
  | true => exact (h.disjoint x (at_iff.1 hx) (at_iff.1 ht)).elim

theorem endsOk_target {f : GraphFragment} {src tgt : List Bool} (h : EndsOk f src tgt) : ∃ x, at' tgt x = true := by
  obtain ⟨x, hx⟩ := h.target
  exact ⟨x, at_iff.2 hx⟩

theorem endsOk_symm {f : GraphFragment} {src tgt : List Bool} (h : EndsOk f src tgt) : EndsOk f tgt src :=
  ⟨h.target_len, h.source_len, h.target, h.source, fun x h1 h2 => h.disjoint x h2 h1⟩

theorem countP_sum {α : Type} (p : α → Bool) (g : Nat → Int) : ∀ (l : List α),
    (∀ i (h : i < l.length), g i = if p l[i] then 1 else 0) →
    ∑ i ∈ Finset.range l.length, g i = l.countP p := by
  intro l
  induction l using List.reverseRecOn with
  | nil => intro _; rfl
  | append_singleton l z ih =>
    intro h
    rw [List.length_append, List.length_singleton, Finset.sum_range_succ, ih, List.countP_append]
    · have := h l.length (by simp)
      rw [this]
      simp only [List.getElem_concat_length]
      cases hz : p z <;> simp [hz]
    · intro i hi
      have := h i (by simp; omega)
      rw [this, List.getElem_append_left hi]

theorem leavingSum_eq {f : GraphFragment} (o : FragmentOk f) {side : List Bool} (hl : side.length = f.nodeCount) :
    leavingSum f (at' side) = leaving f side := by
  have hlen : (localArcs f).length = f.arcCount := by
    unfold localArcs GraphFragment.arcCount
    simp [o.head_len]
  unfold leavingSum leaving
  rw [← hlen]
  apply countP_sum
  intro i hi
  have him : i < f.arcCount := by omega
  have h1 : i < f.tail.length := him
  have h2 : i < f.head.length := by rw [o.head_len]; exact h1
  have hA : FragArc f i f.tail[i] f.head[i] := ⟨List.getElem?_eq_getElem h1, List.getElem?_eq_getElem h2⟩
  have hlt := fragArc_lt o hA
  rw [crossing_eq hA]
  simp only [localArcs, List.getElem_zip]
  have hx := hlt.1
  have hy := hlt.2
  rw [List.getElem?_eq_getElem (by omega), List.getElem?_eq_getElem (by omega)]
  unfold ind
  rw [at_lt (by omega), at_lt (by omega)]
  cases side[f.tail[i]] <;> cases side[f.head[i]] <;> simp

theorem newFlow_spec {f : GraphFragment} {src tgt : List Bool} (h : EndsOk f src tgt) (junk : Nat → Bool) :
    ∃ w, newFlow f src tgt junk = some w ∧ FlowInv f src tgt w ∧ w.intensity = 0 ∧ w.finished = false := by
  have E := endsOk_ends h
  refine ⟨⟨src, tgt, 0, List.replicate f.arcCount false, (List.range f.arcCount).map junk, false⟩, ?_,
    ⟨rfl, rfl, by simp, ?_, ?_, fun h => by cases h⟩, rfl, rfl⟩
  · unfold newFlow
    simp only [Option.bind_eq_bind]
    have c1 : src.length == f.nodeCount := by simpa using E.sl
    have c2 : tgt.length == f.nodeCount := by simpa using E.tl
    obtain ⟨s, hs⟩ := h.source
    obtain ⟨t, ht⟩ := h.target
    have c3 : decide (0 < src.count true) = true :=
      decide_eq_true (List.count_pos_iff.2 (List.mem_of_getElem? hs))
    have c4 : decide (0 < tgt.count true) = true :=
      decide_eq_true (List.count_pos_iff.2 (List.mem_of_getElem? ht))
    rw [c1, c2, c3, c4]
    simp only [check_true, Option.bind_some]
    obtain ⟨u, e, _⟩ := forRange_inv (lo := 0) (hi := f.nodeCount) (s := ())
      (f := fun _ x => do
        let t ← rd tgt x
        let s ← rd src x
        check (!t || !s))
      (fun _ _ => True) (Nat.zero_le _) trivial (by
        intro i _ _ hi _
        have := E.sl
        have := E.tl
        simp only [Option.bind_eq_bind]
        rw [rd_at (by omega), Option.bind_some, rd_at (by omega), Option.bind_some]
        have : (!at' tgt i || !at' src i) = true := by
          cases hs : at' src i with
          | false => simp
          | true => rw [E.disj i hs]; rfl
        rw [this, check_true]
        exact ⟨(), rfl, trivial⟩)
    simp only [Option.bind_eq_bind] at e
    rw [e, Option.bind_some]
  · intro a b _ h1
    simp [at_replicate] at h1
  · intro S _ _
    unfold flowOut
    simp [at_replicate]

theorem advances_spec {f : GraphFragment} (o : FragmentOk f) (hm : f.arcCount < u32) {src tgt : List Bool}
    (h : EndsOk f src tgt) : ∀ (k : Nat) (w : Flow), FlowInv f src tgt w →
    ∃ w', advances f k w = some w' ∧ FlowInv f src tgt w' ∧
      (w'.finished = true ∨ (w.finished = false ∧ w.intensity + k ≤ w'.intensity))
  | 0, w, W => by
    refine ⟨w, rfl, W, ?_⟩
    cases w.finished
    · exact Or.inr ⟨rfl, by omega⟩
    · exact Or.inl rfl
  | k + 1, w, W => by
    obtain ⟨w1, e1, W1, h1⟩ := advance_spec o hm (endsOk_ends h) (endsOk_target h) W
    obtain ⟨w2, e2, W2, h2⟩ := advances_spec o hm h k w1 W1
    refine ⟨w2, ?_, W2, ?_⟩
    · unfold advances
      simp only [Option.bind_eq_bind]
      rw [e1, Option.bind_some, e2]
    · rcases h2 with h2 | ⟨h2, h3⟩
      · exact Or.inl h2
      · rcases h1 with ⟨h1, _⟩ | ⟨h4, h5, h6⟩
        · rw [h1] at h2; cases h2
        · exact Or.inr ⟨h4, by omega⟩

theorem flowRun_inv {f : GraphFragment} (o : FragmentOk f) (hm : f.arcCount < u32) {src tgt : List Bool}
    (h : EndsOk f src tgt) {w : Flow} (r : FlowRun f src tgt w) : FlowInv f src tgt w := by
  obtain ⟨junk, w0, k, h1, h2⟩ := r
  obtain ⟨w0', e0, W0, _⟩ := newFlow_spec h junk
  rw [h1] at e0; cases e0
  obtain ⟨w', e, W, _⟩ := advances_spec o hm h k w0 W0
  rw [h2] at e; cases e
  exact W

/-! ### Complements -/

/-- The back arc. -/
def backOf (f : GraphFragment) (a : Nat) : Nat := (rd f.backArc a).getD 0

theorem backOf_eq {f : GraphFragment} {a b : Nat} (h : rd f.backArc a = some b) : backOf f a = b := by
  unfold backOf; rw [h]; rfl

theorem leavingSum_not {f : GraphFragment} (o : FragmentOk f) (S : Nat → Bool) :
    leavingSum f (fun x => !S x) = leavingSum f S := by
  unfold leavingSum
  have hb : ∀ a, a < f.arcCount → ∃ x y, FragArc f a x y ∧ FragArc f (backOf f a) y x ∧ backOf f (backOf f a) = a := by
    intro a ha
    obtain ⟨x, y, hA⟩ := fragArc_exists o ha
    obtain ⟨b, hb, hB⟩ := fragArc_back o hA
    rw [backOf_eq hb]
    exact ⟨x, y, hA, hB.2, backOf_eq hB.1⟩
  refine Finset.sum_nbij' (backOf f) (backOf f) ?_ ?_ ?_ ?_ ?_
  · intro a ha
    obtain ⟨x, y, _, h, _⟩ := hb a (Finset.mem_range.1 ha)
    exact Finset.mem_range.2 (fragArc_arc_lt h)
  · intro a ha
    obtain ⟨x, y, _, h, _⟩ := hb a (Finset.mem_range.1 ha)
    exact Finset.mem_range.2 (fragArc_arc_lt h)
  · intro a ha
    obtain ⟨x, y, _, _, h⟩ := hb a (Finset.mem_range.1 ha)
    exact h
  · intro a ha
    obtain ⟨x, y, _, _, h⟩ := hb a (Finset.mem_range.1 ha)
    exact h
  · intro a ha
    obtain ⟨x, y, h1, h2, _⟩ := hb a (Finset.mem_range.1 ha)
    rw [crossing_eq h1, crossing_eq h2]
    unfold ind
    cases hx : S x <;> cases hy : S y <;> simp [hx, hy]

/-- Saturation seen from the source side. -/
def usOf (sat : List Bool) (a : Nat) : Bool := at' sat a
/-- Saturation seen from the target side. -/
def vsOf (f : GraphFragment) (sat : List Bool) (a : Nat) : Bool := at' sat (backOf f a)

theorem satOut_eq {f : GraphFragment} {sat : List Bool} (hl : sat.length = f.arcCount) {a : Nat} (ha : a < f.arcCount) :
    satOut sat a = some (usOf sat a) := by
  unfold satOut usOf
  exact rd_at (by omega)

theorem satIn_eq {f : GraphFragment} (o : FragmentOk f) {sat : List Bool} (hl : sat.length = f.arcCount) {a : Nat}
    (ha : a < f.arcCount) : satIn f sat a = some (vsOf f sat a) := by
  obtain ⟨x, y, hA⟩ := fragArc_exists o ha
  obtain ⟨b, hb, hB⟩ := fragArc_back o hA
  have hbm := fragArc_arc_lt hB.2
  unfold satIn vsOf
  simp only [Option.bind_eq_bind]
  rw [hb, Option.bind_some, backOf_eq hb]
  exact rd_at (by omega)

theorem dual_sat {f : GraphFragment} (o : FragmentOk f) (sat : List Bool) : Dual f (usOf sat) (vsOf f sat) := by
  constructor
  · intro R hR a x y hA hx hu hy
    obtain ⟨b, hb, hB⟩ := fragArc_back o hA
    apply hx
    refine hR b y x hB.2 hy ?_
    unfold vsOf
    rw [backOf_eq hB.1]
    exact hu
  · intro R hR a x y hA hx hu hy
    obtain ⟨b, hb, hB⟩ := fragArc_back o hA
    apply hx
    refine hR b y x hB.2 hy ?_
    unfold vsOf at hu
    rw [backOf_eq hb] at hu
    exact hu

/-! ### Minimum cuts -/

theorem separates_at {src tgt side : List Bool} (h : Separates src tgt side) :
    (∀ x, at' src x = true → at' side x = true) ∧ ∀ x, at' tgt x = true → at' side x = false := by
  constructor
  · intro x hx
    exact at_iff.2 (h.source x (at_iff.1 hx))
  · intro x hx
    cases hs : at' side x with
    | false => rfl
    | true =>
      have := h.target x (at_iff.1 hx)
      rw [at_iff.1 hs] at this; cases this

/-- A set on the source side that no unsaturated arc leaves is a minimum cut. -/
theorem minimumCut_source {f : GraphFragment} (o : FragmentOk f) {src tgt : List Bool} (h : EndsOk f src tgt) {w : Flow}
    (W : FlowInv f src tgt w) {side : List Bool} (hl : side.length = f.nodeCount)
    (hsrc : ∀ x, at' src x = true → at' side x = true) (htgt : ∀ x, at' tgt x = true → at' side x = false)
    (hcl : ClosedU f (usOf w.sat) fun x => at' side x = true) :
    MinimumCut f src tgt ⟨side.count true, w.intensity, side⟩ := by
  have E := endsOk_ends h
  refine ⟨⟨?_, ?_, ?_⟩, ?_, rfl, ?_⟩
  · simp only; have := E.sl; omega
  · intro x hx
    exact at_iff.1 (hsrc x (at_iff.2 hx))
  · intro x hx
    have h1 := htgt x (at_iff.2 hx)
    have h2 := at_eq_true_lt (at_iff.2 hx)
    have := E.tl
    simp only
    rw [at_lt (by omega)] at h1
    rw [List.getElem?_eq_getElem (by omega), h1]
  · have h1 := W.val (at' side) hsrc htgt
    have h2 := flowOut_closed o (sat := w.sat) (S := at' side) (fun a x y hA hx hu => hcl a x y hA hx hu) W.anti
    have h3 := leavingSum_eq o hl
    simp only
    omega
  · intro side' hs'
    have hl' : side'.length = f.nodeCount := by have := hs'.len; have := E.sl; omega
    obtain ⟨h1, h2⟩ := separates_at hs'
    have h3 := W.val (at' side') h1 h2
    have h4 := flowOut_le o w.sat (at' side')
    have h5 := leavingSum_eq o hl'
    simp only
    omega

theorem leaving_not {f : GraphFragment} (o : FragmentOk f) {side : List Bool} (hl : side.length = f.nodeCount) :
    leaving f (side.map not) = leaving f side := by
  have h1 := leavingSum_eq o hl
  have h2 := leavingSum_eq (f := f) o (side := side.map not) (by simpa using hl)
  have h3 := leavingSum_not o (at' side)
  have h4 : leavingSum f (at' (side.map not)) = leavingSum f (fun x => !at' side x) := by
    unfold leavingSum
    apply Finset.sum_congr rfl
    intro a ha
    obtain ⟨x, y, hA⟩ := fragArc_exists o (Finset.mem_range.1 ha)
    have hlt := fragArc_lt o hA
    have hx := hlt.1
    have hy := hlt.2
    have hxy : ∀ z, z < f.nodeCount → at' (side.map not) z = !at' side z := by
      intro z hz
      rw [at_lt (by simp; omega), at_lt (by omega)]
      simp
    rw [crossing_eq hA, crossing_eq hA]
    unfold ind
    rw [hxy x hx, hxy y hy]
  omega

theorem separates_not {f : GraphFragment} {src tgt side : List Bool} (h : EndsOk f src tgt) (hs : Separates src tgt side) :
    Separates tgt src (side.map not) := by
  refine ⟨?_, ?_, ?_⟩
  · have := hs.len; have := h.source_len; have := h.target_len
    simp; omega
  · intro x hx
    rw [List.getElem?_map, hs.target x hx]; rfl
  · intro x hx
    rw [List.getElem?_map, hs.source x hx]; rfl

/-- The same for a set on the target side that no unsaturated arc enters. -/
theorem minimumCut_target {f : GraphFragment} (o : FragmentOk f) {src tgt : List Bool} (h : EndsOk f src tgt) {w : Flow}
    (W : FlowInv f src tgt w) {side : List Bool} (hl : side.length = f.nodeCount)
    (htgt : ∀ x, at' tgt x = true → at' side x = true) (hsrc : ∀ x, at' src x = true → at' side x = false)
    (hcl : ClosedU f (vsOf f w.sat) fun x => at' side x = true) :
    MinimumCut f tgt src ⟨side.count true, w.intensity, side⟩ := by
  have hat : ∀ z, z < f.nodeCount → at' (side.map not) z = !at' side z := by
    intro z hz
    rw [at_lt (by simp; omega), at_lt (by omega)]
    simp
  have E := endsOk_ends h
  have M := minimumCut_source o h W (side := side.map not) (by simpa using hl)
    (by
      intro x hx
      rw [hat x (by have := at_eq_true_lt hx; have := E.sl; omega), hsrc x hx]; rfl)
    (by
      intro x hx
      rw [hat x (by have := at_eq_true_lt hx; have := E.tl; omega), htgt x hx]; rfl)
    (by
      have := (dual_sat o w.sat).one _ hcl
      intro a x y hA hx hu
      have hlt := fragArc_lt o hA
      have hxl := hlt.1
      have hyl := hlt.2
      rw [hat x hxl] at hx
      rw [hat y hyl]
      have := this a x y hA (by simpa using hx) hu
      simpa using this)
  have h1 := M.size
  simp only at h1
  rw [leaving_not o hl] at h1
  refine ⟨⟨by simp only; have := E.tl; omega, ?_, ?_⟩, h1, rfl, ?_⟩
  · intro x hx
    exact at_iff.1 (htgt x (at_iff.2 hx))
  · intro x hx
    have h1 := hsrc x (at_iff.2 hx)
    have h2 := at_eq_true_lt (at_iff.2 hx)
    have := E.sl
    simp only
    rw [at_lt (by omega)] at h1
    rw [List.getElem?_eq_getElem (by omega), h1]
  · intro side' hs'
    have h2 := M.smallest _ (separates_not (endsOk_symm h) hs')
    rw [leaving_not o (by have := hs'.len; have := E.tl; omega)] at h2
    exact h2

/-- No unsaturated arc leaves a set with as few leaving arcs as the flow. -/
theorem closed_of_minimum {f : GraphFragment} (o : FragmentOk f) {src tgt : List Bool} (h : EndsOk f src tgt) {w : Flow}
    (W : FlowInv f src tgt w) {side : List Bool} (hs : Separates src tgt side) (hle : leaving f side ≤ w.intensity) :
    ClosedU f (usOf w.sat) fun x => at' side x = true := by
  have E := endsOk_ends h
  have hl : side.length = f.nodeCount := by have := hs.len; have := E.sl; omega
  obtain ⟨h1, h2⟩ := separates_at hs
  have h3 := W.val (at' side) h1 h2
  have h4 := leavingSum_eq o hl
  have h5 := flowOut_le o w.sat (at' side)
  have heq : flowOut f w.sat (at' side) = leavingSum f (at' side) := by omega
  unfold flowOut leavingSum at heq
  have key := (Finset.sum_eq_sum_iff_of_le (by
    intro a ha
    have := crossing_le o (at' side) (Finset.mem_range.1 ha)
    split <;> split <;> omega)).1 heq
  intro a x y hA hx hu
  have h6 := key a (Finset.mem_range.2 (fragArc_arc_lt hA))
  unfold usOf at hu
  rw [hu, crossing_eq hA] at h6
  simp only [Bool.false_eq_true, if_false] at h6
  unfold ind at h6
  rw [hx] at h6
  cases hy : at' side y with
  | true => rfl
  | false =>
    rw [hy] at h6
    simp at h6

/-! ### The three functions -/

theorem getSourceCut_spec {f : GraphFragment} (o : FragmentOk f) {src tgt : List Bool} (h : EndsOk f src tgt) {w : Flow}
    (W : FlowInv f src tgt w) (hf : w.finished = true) :
    ∃ c, getSourceCut f w = some c ∧ MinimumCut f src tgt c ∧ c.cutSize = w.intensity ∧
      ReachDone f (usOf w.sat) (fun x => at' src x = true) c.isNodeOnSide := by
  have E := endsOk_ends h
  obtain ⟨s, e, I, C, hc⟩ := sideStart_spec (f := f) (start := src) E.sl (usOf w.sat)
  obtain ⟨s', e', D, hc'⟩ := sideLoop_spec o (isSat := satOut w.sat) (fun a ha => satOut_eq W.sl ha)
    (f.nodeCount + 1) _ 0 s I C hc (by omega)
  obtain ⟨U, hU1, hU2, hU3⟩ := W.fin hf
  have ht : ∀ x, at' tgt x = true → at' s'.side x = false := by
    intro x hx
    cases hs : at' s'.side x with
    | false => rfl
    | true => exact (hU2 x hx (D.up U (fun a x y hA hx hu => hU3 a x y hA hx hu) hU1 x hs)).elim
  refine ⟨⟨s'.count, w.intensity, s'.side⟩, ?_, ?_, rfl, D⟩
  · unfold getSourceCut
    rw [hf, W.isrc]
    simp only [Option.bind_eq_bind, check_true, Option.bind_some]
    rw [e, Option.bind_some, e', Option.bind_some]
  · rw [hc']
    exact minimumCut_source o h W D.rl D.sub ht D.cl

theorem getTargetCut_spec {f : GraphFragment} (o : FragmentOk f) {src tgt : List Bool} (h : EndsOk f src tgt) {w : Flow}
    (W : FlowInv f src tgt w) (hf : w.finished = true) :
    ∃ c, getTargetCut f w = some c ∧ MinimumCut f tgt src c ∧ c.cutSize = w.intensity ∧
      ReachDone f (vsOf f w.sat) (fun x => at' tgt x = true) c.isNodeOnSide := by
  have E := endsOk_ends h
  obtain ⟨s, e, I, C, hc⟩ := sideStart_spec (f := f) (start := tgt) E.tl (vsOf f w.sat)
  obtain ⟨s', e', D, hc'⟩ := sideLoop_spec o (isSat := satIn f w.sat) (fun a ha => satIn_eq o W.sl ha)
    (f.nodeCount + 1) _ 0 s I C hc (by omega)
  obtain ⟨U, hU1, hU2, hU3⟩ := W.fin hf
  have hcl : ClosedU f (vsOf f w.sat) fun x => ¬ U x := (dual_sat o w.sat).two U (fun a x y hA hx hu => hU3 a x y hA hx hu)
  have ht : ∀ x, at' src x = true → at' s'.side x = false := by
    intro x hx
    cases hs : at' s'.side x with
    | false => rfl
    | true => exact (D.up _ hcl hU2 x hs (hU1 x hx)).elim
  refine ⟨⟨s'.count, w.intensity, s'.side⟩, ?_, ?_, rfl, D⟩
  · unfold getTargetCut
    rw [hf, W.itgt]
    simp only [Option.bind_eq_bind, check_true, Option.bind_some]
    rw [e, Option.bind_some, e', Option.bind_some]
  · rw [hc']
    exact minimumCut_target o h W D.rl D.sub ht D.cl

theorem getBalancedCut_spec {f : GraphFragment} (o : FragmentOk f) {src tgt : List Bool} (h : EndsOk f src tgt) {w : Flow}
    (W : FlowInv f src tgt w) (hf : w.finished = true) :
    ∃ c, getBalancedCut f w = some c ∧ (MinimumCut f src tgt c ∨ MinimumCut f tgt src c) ∧ c.cutSize = w.intensity ∧
      2 * c.nodeOnSideCount ≤ f.nodeCount ∧
      ∀ s t : List Bool, ReachDone f (usOf w.sat) (fun x => at' src x = true) s →
        ReachDone f (vsOf f w.sat) (fun x => at' tgt x = true) t →
        min (s.count true) (t.count true) ≤ c.nodeOnSideCount := by
  have E := endsOk_ends h
  have hus := fun a (ha : a < f.arcCount) => satOut_eq (f := f) W.sl ha
  have hvs := fun a (ha : a < f.arcCount) => satIn_eq o W.sl ha
  obtain ⟨s0, e0, G0⟩ := growStart_spec (f := f) (start := src) E.sl (usOf w.sat)
  obtain ⟨s, P, e1, G1, hs1⟩ := growLoop_spec o hus (f.nodeCount + 1) _ s0 G0 (by omega)
  obtain ⟨t0, e2, H0⟩ := growStart_spec (f := f) (start := tgt) E.tl (vsOf f w.sat)
  obtain ⟨t, R, e3, H1, ht1⟩ := growLoop_spec o hvs (f.nodeCount + 1) _ t0 H0 (by omega)
  obtain ⟨U, hU1, hU2, hU3⟩ := W.fin hf
  have hcl : ClosedU f (vsOf f w.sat) fun x => ¬ U x := (dual_sat o w.sat).two U (fun a x y hA hx hu => hU3 a x y hA hx hu)
  have hd : ∀ x, at' s.reach x = true → at' t.reach x = true → False := by
    intro x h1 h2
    exact H1.ri.up _ hcl hU2 x h2 (G1.ri.up U (fun a x y hA hx hu => hU3 a x y hA hx hu) hU1 x h1)
  have S1 : SideInv f (usOf w.sat) src s := ⟨⟨_, P, G1⟩, hs1, G1.ri.sub⟩
  have T1 : SideInv f (vsOf f w.sat) tgt t := ⟨⟨_, R, H1⟩, ht1, H1.ri.sub⟩
  obtain ⟨c, s', t', g1, g2, g3, g4, g5, g6, g7⟩ := balancedLoop_spec o (v := w.intensity) hus hvs (dual_sat o w.sat)
    (f.nodeCount + 1) s t S1 T1 hd (by omega)
  have k1 := g2.cnt
  have k2 := g3.cnt
  have k3 := g2.rl
  have k4 := g3.rl
  have k5 := count_true_disjoint (a := s'.reach) (b := t'.reach) (by omega) g4
  have hmono : ∀ sd td : List Bool, ReachDone f (usOf w.sat) (fun x => at' src x = true) sd →
        ReachDone f (vsOf f w.sat) (fun x => at' tgt x = true) td →
        sd.count true ≤ s'.count ∧ td.count true ≤ t'.count := by
    intro sd td D1 D2
    rw [k1, k2]
    exact ⟨count_true_mono (by have := D1.rl; omega) (D1.up _ g2.cl g2.ends),
      count_true_mono (by have := D2.rl; omega) (D2.up _ g3.cl g3.ends)⟩
  refine ⟨c, ?_, ?_, ?_, ?_, ?_⟩
  · unfold getBalancedCut
    rw [hf, W.isrc, W.itgt]
    simp only [Option.bind_eq_bind, check_true, Option.bind_some]
    rw [e0, Option.bind_some, e1, Option.bind_some, e2, Option.bind_some, e3, Option.bind_some, g1]
  · rcases g7 with ⟨_, rfl⟩ | ⟨_, rfl⟩
    · left
      rw [k1]
      refine minimumCut_source o h W k3 g2.ends ?_ g2.cl
      intro x hx
      cases hs : at' s'.reach x with
      | false => rfl
      | true => exact (g4 x hs (g3.ends x hx)).elim
    · right
      rw [k2]
      refine minimumCut_target o h W k4 g3.ends ?_ g3.cl
      intro x hx
      cases hs : at' t'.reach x with
      | false => rfl
      | true => exact (g4 x (g2.ends x hx) hs).elim
  · rcases g7 with ⟨_, rfl⟩ | ⟨_, rfl⟩ <;> rfl
  · rcases g7 with ⟨h1, rfl⟩ | ⟨h1, rfl⟩ <;> simp only <;> omega
  · intro sd td D1 D2
    have := hmono sd td D1 D2
    rcases g7 with ⟨h1, rfl⟩ | ⟨h1, rfl⟩ <;> simp only <;> omega

end RK
