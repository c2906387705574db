import Verif.Props.ChPositive
import Verif.Props.KmlText
/-! # C75 and C92 without conditions on the hierarchy -/
namespace RK.Props
open RK Ieee _root_.Spec

/-- The preconditions of the tools for graphs with at most 250 nodes without cycles of weight 0. -/
theorem positive_hierarchy {asserts : Bool} {junkF junkB : Nat → Word} {disk : Disk} (ho : disk.canOpen = true) (hr : 1006840 ≤ disk.room) {n : Nat}
    {firstOut head weight : List Nat} (hG : ToolGraph n firstOut head weight) (hz : NoZeroCycles (csrArcs firstOut head weight)) {W : Nat}
    (hW : ∀ w ∈ weight, w ≤ W) (hn : n ≤ 250) (hfit : n * W ≤ lightArc) :
    (∀ w ∈ weight, w ≤ 2 * lightArc) ∧ ∃ ch, ToolHierarchy asserts false junkF junkB disk n firstOut head weight ch := by
  obtain ⟨tail, _, ht⟩ := invert_tail hG.csr
  have hne : tail ≠ [] := fun e => hG.nonempty (List.length_eq_zero_iff.1 (by rw [← ht.1, e]; rfl))
  have hn0 : n ≠ 0 := by
    obtain ⟨x, hx⟩ := List.exists_mem_of_ne_nil _ hne
    have := isTail_lt hG.csr ht x hx
    omega
  have hWs : W ≤ lightArc := Nat.le_trans (Nat.le_mul_of_pos_left W (by omega)) hfit
  have hw : ∀ w ∈ weight, w ≤ 2 * lightArc := fun w h => by have := hW w h; omega
  obtain ⟨_, h2⟩ := C78_positive_graphs _ tail head weight (toolGraph_input hG ht hw) hz asserts 500 W junkF junkB
    (fun _ => hne) (by show 2 * n ≤ 500; omega) hW (by show n ≤ 65535; omega) hfit
  obtain ⟨ch, hb, hbf⟩ := h2 (by show n ≤ 46340; omega)
  have hbound : fileBound n ≤ 1006840 := by
    have : n * (n - 1) ≤ 250 * 249 := Nat.mul_le_mul hn (by omega)
    unfold fileBound
    generalize n * (n - 1) = k at *
    omega
  exact ⟨hw, ch, toolHierarchy hG (by omega) ht ho (by omega) hb hbf (builtFor_light hbf)⟩

/-- C75 for graphs with at most 250 nodes without cycles of weight 0, without any condition on the hierarchy. -/
theorem C75_positive_graphs (asserts : Bool) (junkF junkB : Nat → Word) (pad : List Byte) (hpad : pad.length = 4)
    (disk : Disk) (ho : disk.canOpen = true) (hr : 1006840 ≤ disk.room) (n : Nat) (firstOut head weight : List Nat)
    (hG : ToolGraph n firstOut head weight) (hz : NoZeroCycles (csrArcs firstOut head weight)) (W : Nat)
    (hW : ∀ w ∈ weight, w ≤ W) (hn : n ≤ 250) (hfit : n * W ≤ lightArc) :
    ∃ file, toolComputeCh asserts false junkF junkB pad disk firstOut head weight = .ok file ∧
      ∀ (α : Type) (latitude longitude : List α), n ≤ latitude.length → n ≤ longitude.length →
        ∀ (pairs : List (Nat × Nat)), (∀ p ∈ pairs, p.1 < n ∧ p.2 < n) → ∀ (text : List Char),
          NumbersText text (pairs.flatMap fun p => [p.1, p.2]) →
            ∃ docs, toolShowPath false (some file) latitude longitude text = .ok (docs, .finished) ∧
              DocumentsFor (csrArcs firstOut head weight) latitude longitude pairs docs := by
  obtain ⟨hw, ch, hch⟩ := positive_hierarchy (asserts := asserts) (junkF := junkF) (junkB := junkB) ho hr hG hz hW hn hfit
  obtain ⟨file, e, h⟩ := C75_drawings_partial asserts false junkF junkB pad hpad disk n firstOut head weight hG hw ch hch
  exact ⟨file, e, fun α lat lon h1 h2 pairs hp text => (h α lat lon h1 h2 pairs hp text).1⟩

/-- C92 for graphs with at most 250 nodes without cycles of weight 0, without any condition on the hierarchy. -/
theorem C92_positive_graphs (asserts : Bool) (junkF junkB : Nat → Word) (pad : List Byte) (hpad : pad.length = 4)
    (disk : Disk) (ho : disk.canOpen = true) (hr : 1006840 ≤ disk.room) (n : Nat) (firstOut head weight : List Nat)
    (hG : ToolGraph n firstOut head weight) (hz : NoZeroCycles (csrArcs firstOut head weight)) (W : Nat)
    (hW : ∀ w ∈ weight, w ≤ W) (hn : n ≤ 250) (hfit : n * W ≤ lightArc) :
    ∃ file, toolComputeCh asserts false junkF junkB pad disk firstOut head weight = .ok file ∧
      ∀ (latitude longitude : List FloatValue), n ≤ latitude.length → n ≤ longitude.length → FiniteFloats latitude → FiniteFloats longitude →
        ∀ (pairs : List (Nat × Nat)), (∀ p ∈ pairs, p.1 < n ∧ p.2 < n) → ∀ (text : List Char),
          NumbersText text (pairs.flatMap fun p => [p.1, p.2]) →
            ∃ docs, toolShowPathText false (some file) latitude longitude text = .ok (docs.flatten, .finished) ∧
              List.Forall₂ (fun p d => RouteText (csrArcs firstOut head weight) (latitude.map FloatValue.value) (longitude.map FloatValue.value) p.1 p.2 d)
                pairs docs := by
  obtain ⟨hw, ch, hch⟩ := positive_hierarchy (asserts := asserts) (junkF := junkF) (junkB := junkB) ho hr hG hz hW hn hfit
  obtain ⟨file, e, h⟩ := C92_text_partial asserts false junkF junkB pad hpad disk n firstOut head weight hG hw ch hch
  exact ⟨file, e, fun lat lon h1 h2 h3 h4 pairs hp text => (h lat lon h1 h2 h3 h4 pairs hp text).1⟩

/-- The sample graph of C68 with other weights meets the hypotheses. -/
example : ToolGraph 5 sampleFirstOut sampleHead [9, 4, 7, 2, 1, 5] ∧ NoZeroCycles (csrArcs sampleFirstOut sampleHead [9, 4, 7, 2, 1, 5]) ∧
    (∀ w ∈ [9, 4, 7, 2, 1, 5], w ≤ 9) ∧ 5 ≤ 250 ∧ 5 * 9 ≤ lightArc := by
  refine ⟨{ sampleTool_graph with weights := rfl }, noZeroCycles_of_positive ?_, by decide, by decide, by decide⟩
  intro a x y w h
  exact (by decide : ∀ w ∈ [9, 4, 7, 2, 1, 5], 1 ≤ w) w (List.mem_of_getElem? h.2.2)

end RK.Props
