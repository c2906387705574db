import Verif.Props.ChQuery
import Verif.Proof.ChBound
/-! # Property theorems C78 (contraction_hierarchy.cpp, the construction returns) -/
namespace RK.Props
open RK _root_.Spec

/-- In all states of the construction the remaining arcs weigh at most `lightArc`, and there are ids left for
the arcs of the hierarchy. -/
def StatesFit (n : Nat) (tail head weight : List Nat) (maxPop : Nat) : Prop :=
  ∀ g, startGraph n tail head weight = some g → ∀ C s, BuildRun n g maxPop C s → s.Fits n lightArc

/-- In all states the numbers of original arcs have 32-bit sums, see `BuildState.HopsFit`. -/
def HopsFit (n : Nat) (tail head weight : List Nat) (maxPop : Nat) : Prop :=
  ∀ g, startGraph n tail head weight = some g → ∀ C s, BuildRun n g maxPop C s → s.HopsFit

theorem GraphInput.size' {G : QGraph} {tail head weight : List Nat} (h : GraphInput G tail head weight) :
    tail.length ≤ invalidId := by
  have := h.size
  rw [invalidId_val]; omega

/-- C78, `build`: if the numbers of the construction fit into 32 bits, it returns a hierarchy to which the
theorems about queries apply. With assertions enabled the graph must have an arc. -/
theorem C78_build_returns (G : QGraph) (tail head weight : List Nat) (h : GraphInput G tail head weight)
    (asserts : Bool) (maxPop : Nat) (junkF junkB : Nat → Word) (hne : asserts = true → tail ≠ [])
    (hfit : StatesFit G.n tail head weight maxPop) (hhop : HopsFit G.n tail head weight maxPop) :
    ∃ ch, Ch.build asserts G.n tail head weight maxPop junkF junkB = some ch ∧ BuiltFor ch G := by
  obtain ⟨ch, e, hL⟩ := build_total (M := lightArc) asserts junkF junkB h.nodes h.head_len h.weight_len h.tail_lt
    h.head_lt h.size' h.weight_le (by decide) hne (fun g hg C s hr => ⟨hfit g hg C s hr, hhop g hg C s hr⟩)
  exact ⟨ch, e, tail, head, weight, h, asserts, maxPop, junkF, junkB, Or.inl e, hL.1, hL.2⟩

/-- C78, `build_given_rank`. -/
theorem C78_build_given_rank_returns (G : QGraph) (tail head weight : List Nat) (h : GraphInput G tail head weight)
    (rank : List Nat) (hp : IsPermutation rank) (hl : rank.length = G.n)
    (asserts : Bool) (maxPop : Nat) (junkF junkB : Nat → Word) (hne : asserts = true → tail ≠ [])
    (hfit : StatesFit G.n tail head weight maxPop) :
    ∃ ch, Ch.buildGivenRank asserts rank tail head weight maxPop junkF junkB = some ch ∧ BuiltFor ch G := by
  obtain ⟨ch, e, hL⟩ := buildGivenRank_total (M := lightArc) asserts junkF junkB h.nodes (isPerm_iff_perm.2 hp) hl
    h.head_len h.weight_len h.tail_lt h.head_lt h.size' h.weight_le (by decide) hne hfit
  exact ⟨ch, e, tail, head, weight, h, asserts, maxPop, junkF, junkB, Or.inr (Or.inl ⟨rank, hp, hl, e⟩), hL.1, hL.2⟩

/-- C78, `build_given_order`. -/
theorem C78_build_given_order_returns (G : QGraph) (tail head weight : List Nat) (h : GraphInput G tail head weight)
    (order : List Nat) (hp : IsPermutation order) (hl : order.length = G.n)
    (asserts : Bool) (maxPop : Nat) (junkF junkB : Nat → Word) (hne : asserts = true → tail ≠ [])
    (hfit : StatesFit G.n tail head weight maxPop) :
    ∃ ch, Ch.buildGivenOrder asserts order tail head weight maxPop junkF junkB = some ch ∧ BuiltFor ch G := by
  obtain ⟨rank, er, h1, h2, _⟩ := invertPermutation_spec (isPerm_iff_perm.2 hp)
  obtain ⟨ch, e, hL⟩ := buildGivenRank_total (M := lightArc) asserts junkF junkB h.nodes h2 (h1.trans hl)
    h.head_len h.weight_len h.tail_lt h.head_lt h.size' h.weight_le (by decide) hne hfit
  have e' : Ch.buildGivenOrder asserts order tail head weight maxPop junkF junkB = some ch := by
    unfold Ch.buildGivenOrder
    simp only [er, Option.bind_eq_bind, Option.bind_some, e]
  exact ⟨ch, e', tail, head, weight, h, asserts, maxPop, junkF, junkB, Or.inr (Or.inr ⟨order, hp, hl, e'⟩), hL.1, hL.2⟩

/-! ### Graphs for which the numbers fit -/

/-- Contracting a node at most doubles the numbers, whatever the limit of the witness searches is. -/
theorem C78_small_graphs_fit (G : QGraph) (tail head weight : List Nat) (h : GraphInput G tail head weight)
    (maxPop W : Nat) (hW : ∀ w ∈ weight, w ≤ W) (hn : G.n ≤ 26) (hfit : 2 ^ G.n * W ≤ lightArc) :
    StatesFit G.n tail head weight maxPop ∧ HopsFit G.n tail head weight maxPop := by
  have key : ∀ g, startGraph G.n tail head weight = some g → ∀ C s, BuildRun G.n g maxPop C s →
      s.Fits G.n lightArc ∧ s.HopsFit := by
    intro g hg C s hr
    obtain ⟨A0, hgr, hA, _⟩ := startGraph_rep h.head_len h.weight_len h.tail_lt h.head_lt h.size' hg
    obtain ⟨h1, h2⟩ := hr.fits (M := lightArc) (H := 2 ^ G.n) (Doubling W) (by omega) hgr (by decide)
      (by
        intro x y i hi
        obtain ⟨a, b, _⟩ := hA x y i hi
        have := hW _ b
        simp only [List.length_nil, Nat.pow_zero, Nat.one_mul]; omega)
      (fun C A v A' hJ _ _ hs => hJ.step hs)
      (fun C A hJ hC x y i hi => by
        obtain ⟨a, b⟩ := hJ.le hC x y i hi
        exact ⟨by omega, b⟩)
    refine ⟨h1, h2 ?_⟩
    have h3 : 2 ^ G.n ≤ 2 ^ 26 := Nat.pow_le_pow_right (by omega) hn
    have h4 : G.n * 2 ^ G.n ≤ 26 * 2 ^ 26 := Nat.mul_le_mul hn h3
    omega
  exact ⟨fun g hg C s hr => (key g hg C s hr).1, fun g hg C s hr => (key g hg C s hr).2⟩

/-- No arc is longer than the distance of its ends, apart from loops and from arcs with a shorter parallel arc. -/
def TightArcs (A : ArcRel) : Prop :=
  ∀ a x y w, A a x y w → x ≠ y → ∃ b d, A b x y d ∧ IsDist A x y d

theorem tight_facts {G : QGraph} {tail head weight : List Nat} (h : GraphInput G tail head weight)
    (ht : TightArcs G.arcs) {W : Nat} (hW : ∀ w ∈ weight, w ≤ W) {g : ChGraph}
    (hg : startGraph G.n tail head weight = some g) :
    ∃ A0, GRep g G.n A0 ∧ Shortest A0 [] A0 ∧ (∀ x y i, A0 x y = some i → i.hop = 1 ∧ i.weight ∈ weight) ∧
      ∀ C A, Shortest A0 C A → ∀ x y i, A x y = some i → i.weight ≤ G.n * W := by
  obtain ⟨A0, hgr, hA, hall⟩ := startGraph_rep h.head_len h.weight_len h.tail_lt h.head_lt h.size' hg
  have hin : ∀ x y i, A0 x y = some i → x ≠ y ∧ ∃ a, listArcs tail head weight a x y i.weight :=
    fun x y i hi => ⟨(hgr.dom x y i hi).2.2, (hA x y i hi).2.2⟩
  unfold TightArcs at ht
  rw [h.arcs] at ht
  refine ⟨A0, hgr, start_shortest hin hall ht, fun x y i hi => ⟨(hA x y i hi).1, (hA x y i hi).2.1⟩, ?_⟩
  intro C A hS
  exact hS.weight_le hin hall
    (fun a x y w ha => ⟨h.tail_lt x (List.mem_of_getElem? ha.1), h.head_lt y (List.mem_of_getElem? ha.2.1)⟩)
    (fun a x y w ha => hW w (List.mem_of_getElem? ha.2.2))

/-- If no arc is longer than the distance of its ends and the witness searches may pop every node in both
directions, then all shortcuts are shortest paths, so their weights are bounded by the distances. -/
theorem C78_tight_graphs_fit (G : QGraph) (tail head weight : List Nat) (h : GraphInput G tail head weight)
    (ht : TightArcs G.arcs) (maxPop W : Nat) (hpop : 2 * G.n ≤ maxPop) (hW : ∀ w ∈ weight, w ≤ W) (hn : G.n ≤ 65535)
    (hfit : G.n * W ≤ lightArc) : StatesFit G.n tail head weight maxPop := by
  intro g hg C s hr
  obtain ⟨A0, hgr, h0, hA, hle⟩ := tight_facts h ht hW hg
  refine (hr.fits (M := lightArc) (H := u32) (fun C A => Shortest A0 C A ∧ ∀ x y i, A x y = some i → i.hop ≤ u32)
    hn hgr (by decide) ⟨h0, fun x y i hi => by rw [(hA x y i hi).1]; decide⟩ ?_ ?_).1
  · rintro C A v A' ⟨h1, h2⟩ _ _ hs
    refine ⟨h1.step hpop hs, fun x y i hi => ?_⟩
    rcases hs.base.origin x y i hi with hi | ⟨i1, i2, _, _, rfl⟩
    · exact h2 x y i hi
    · exact Nat.le_of_lt (Nat.mod_lt _ (by decide))
  · rintro C A ⟨h1, h2⟩ _ x y i hi
    exact ⟨Nat.le_trans (hle C A h1 x y i hi) hfit, h2 x y i hi⟩

/-- If in addition all weights are positive, the numbers of original arcs are bounded by the weights. -/
theorem C78_tight_graphs_hops_fit (G : QGraph) (tail head weight : List Nat) (h : GraphInput G tail head weight)
    (ht : TightArcs G.arcs) (maxPop W : Nat) (hpop : 2 * G.n ≤ maxPop) (hW : ∀ w ∈ weight, w ≤ W) (hn : G.n ≤ 65535)
    (hfit : G.n * W ≤ lightArc) (hpos : ∀ w ∈ weight, 1 ≤ w) (hfit2 : 1 + 2 * (G.n * (G.n * W)) < 2 ^ 32) :
    HopsFit G.n tail head weight maxPop := by
  intro g hg C s hr
  obtain ⟨A0, hgr, h0, hA, hle⟩ := tight_facts h ht hW hg
  refine (hr.fits (M := lightArc) (H := G.n * W) (fun C A => Shortest A0 C A ∧ ∀ x y i, A x y = some i → i.hop ≤ i.weight)
    hn hgr (by decide) ⟨h0, fun x y i hi => by rw [(hA x y i hi).1]; exact hpos _ (hA x y i hi).2⟩ ?_ ?_).2 hfit2
  · rintro C A v A' ⟨h1, h2⟩ _ _ hs
    refine ⟨h1.step hpop hs, fun x y i hi => ?_⟩
    rcases hs.base.origin x y i hi with hi | ⟨i1, i2, a1, a2, rfl⟩
    · exact h2 x y i hi
    · have := h2 _ _ _ a1
      have := h2 _ _ _ a2
      have : add32 i1.hop i2.hop ≤ i1.hop + i2.hop := Nat.mod_le _ _
      simp only [shortcut]; omega
  · rintro C A ⟨h1, h2⟩ _ x y i hi
    have a := hle C A h1 x y i hi
    have b := h2 x y i hi
    exact ⟨by omega, by omega⟩

/-- C78, whole statement for small graphs: all three functions return. -/
theorem C78_small_graphs (G : QGraph) (tail head weight : List Nat) (h : GraphInput G tail head weight)
    (asserts : Bool) (maxPop W : Nat) (junkF junkB : Nat → Word) (hne : asserts = true → tail ≠ [])
    (hW : ∀ w ∈ weight, w ≤ W) (hn : G.n ≤ 26) (hfit : 2 ^ G.n * W ≤ lightArc) :
    (∃ ch, Ch.build asserts G.n tail head weight maxPop junkF junkB = some ch ∧ BuiltFor ch G) ∧
    ∀ p : List Nat, IsPermutation p → p.length = G.n →
      (∃ ch, Ch.buildGivenRank asserts p tail head weight maxPop junkF junkB = some ch ∧ BuiltFor ch G) ∧
      (∃ ch, Ch.buildGivenOrder asserts p tail head weight maxPop junkF junkB = some ch ∧ BuiltFor ch G) := by
  obtain ⟨h1, h2⟩ := C78_small_graphs_fit G tail head weight h maxPop W hW hn hfit
  exact ⟨C78_build_returns G tail head weight h asserts maxPop junkF junkB hne h1 h2, fun p hp hl =>
    ⟨C78_build_given_rank_returns G tail head weight h p hp hl asserts maxPop junkF junkB hne h1,
      C78_build_given_order_returns G tail head weight h p hp hl asserts maxPop junkF junkB hne h1⟩⟩

/-- C78, whole statement for tight graphs. -/
theorem C78_tight_graphs (G : QGraph) (tail head weight : List Nat) (h : GraphInput G tail head weight)
    (ht : TightArcs G.arcs) (asserts : Bool) (maxPop W : Nat) (junkF junkB : Nat → Word)
    (hne : asserts = true → tail ≠ []) (hpop : 2 * G.n ≤ maxPop) (hW : ∀ w ∈ weight, w ≤ W) (hn : G.n ≤ 65535)
    (hfit : G.n * W ≤ lightArc) :
    (∀ p : List Nat, IsPermutation p → p.length = G.n →
      (∃ ch, Ch.buildGivenRank asserts p tail head weight maxPop junkF junkB = some ch ∧ BuiltFor ch G) ∧
      (∃ ch, Ch.buildGivenOrder asserts p tail head weight maxPop junkF junkB = some ch ∧ BuiltFor ch G)) ∧
    ((∀ w ∈ weight, 1 ≤ w) → 1 + 2 * (G.n * (G.n * W)) < 2 ^ 32 →
      ∃ ch, Ch.build asserts G.n tail head weight maxPop junkF junkB = some ch ∧ BuiltFor ch G) := by
  have h1 := C78_tight_graphs_fit G tail head weight h ht maxPop W hpop hW hn hfit
  exact ⟨fun p hp hl => ⟨C78_build_given_rank_returns G tail head weight h p hp hl asserts maxPop junkF junkB hne h1,
      C78_build_given_order_returns G tail head weight h p hp hl asserts maxPop junkF junkB hne h1⟩,
    fun hpos hf2 => C78_build_returns G tail head weight h asserts maxPop junkF junkB hne h1
      (C78_tight_graphs_hops_fit G tail head weight h ht maxPop W hpop hW hn hfit hpos hf2)⟩

/-! ### Concrete cases -/

/-- The sample of C22 is small. -/
example : ∃ tail head weight, GraphInput sampleChGraph tail head weight ∧ (true = true → tail ≠ []) ∧
    (∀ w ∈ weight, w ≤ 7) ∧ sampleChGraph.n ≤ 26 ∧ 2 ^ sampleChGraph.n * 7 ≤ lightArc :=
  ⟨[0, 0, 1, 1, 2, 3, 3, 4], [1, 2, 2, 3, 3, 4, 0, 3], [4, 1, 1, 5, 7, 1, 2, 2],
    ⟨rfl, rfl, rfl, by decide, by decide, by decide, by decide, by decide⟩, by decide, by decide, by decide, by decide⟩

/-- Two paths of the same length from 0 to 3, a heavier parallel arc from 0 to 1 and a loop at 2. -/
def tightSample : QGraph := ⟨4, listArcs [0, 0, 0, 1, 2, 2] [1, 1, 2, 3, 3, 2] [1, 9, 1, 2, 2, 3]⟩

theorem walk_potential {A : ArcRel} {pot : Nat → Nat} (h : ∀ a x y w, A a x y w → pot y ≤ pot x + w) {x y l : Nat}
    {p : List Nat} (hw : Walk A x p y l) : pot y ≤ pot x + l := by
  induction hw with
  | nil => simp
  | cons ha _ ih => have := h _ _ _ _ ha; omega

theorem tightSample_tight : TightArcs tightSample.arcs := by
  let pot : Nat → Nat := fun x => if x = 0 then 0 else if x = 3 then 3 else 1
  have hall : ∀ a x y w, tightSample.arcs a x y w → pot y ≤ pot x + w ∧
      (x ≠ y → ∃ b, tightSample.arcs b x y (pot y - pot x)) := by
    rintro a x y w ⟨h1, h2, h3⟩
    have ha : a < 6 := rd_some_lt (v := [0, 0, 0, 1, 2, 2]) h1
    have : a = 0 ∨ a = 1 ∨ a = 2 ∨ a = 3 ∨ a = 4 ∨ a = 5 := by omega
    rcases this with rfl | rfl | rfl | rfl | rfl | rfl <;> (simp at h1 h2 h3; subst h1; subst h2; subst h3)
    · exact ⟨by decide, fun _ => ⟨0, rfl, rfl, rfl⟩⟩
    · exact ⟨by decide, fun _ => ⟨0, rfl, rfl, rfl⟩⟩
    · exact ⟨by decide, fun _ => ⟨2, rfl, rfl, rfl⟩⟩
    · exact ⟨by decide, fun _ => ⟨3, rfl, rfl, rfl⟩⟩
    · exact ⟨by decide, fun _ => ⟨4, rfl, rfl, rfl⟩⟩
    · exact ⟨by decide, fun h => absurd rfl h⟩
  intro a x y w ha hxy
  obtain ⟨b, hb⟩ := (hall a x y w ha).2 hxy
  refine ⟨b, _, hb, ⟨[b], by simpa using Walk.cons hb (Walk.nil y)⟩, ?_⟩
  intro p l hw
  have := walk_potential (pot := pot) (fun a x y w h => (hall a x y w h).1) hw
  omega

example : ∃ tail head weight, GraphInput tightSample tail head weight ∧ TightArcs tightSample.arcs ∧
    2 * tightSample.n ≤ 500 ∧ (∀ w ∈ weight, w ≤ 9) ∧ tightSample.n ≤ 65535 ∧ tightSample.n * 9 ≤ lightArc ∧
    (∀ w ∈ weight, 1 ≤ w) ∧ 1 + 2 * (tightSample.n * (tightSample.n * 9)) < 2 ^ 32 :=
  ⟨[0, 0, 0, 1, 2, 2], [1, 1, 2, 3, 3, 2], [1, 9, 1, 2, 2, 3],
    ⟨rfl, rfl, rfl, by decide, by decide, by decide, by decide, by decide⟩, tightSample_tight, by decide, by decide,
    by decide, by decide, by decide, by decide⟩

/-! ### Heavy arcs -/

/-- A path over heavy arcs (all weights are below `inf_weight`) and an arc of weight 100 from 0 to 3. -/
def heavySample : Option Ch :=
  Ch.buildGivenOrder true [1, 2, 0, 3] [0, 0, 1, 2] [1, 3, 2, 3] [2147483646, 100, 2147483646, 10] 500 (fun _ => 0) (fun _ => 0)

/-- Some bound on the weights is needed in C22 and C78: the weight of the path over the heavy arcs wraps to 6. The
hierarchy is built without complaint, and the distance of 0 and 3 is reported as 6 and not as 100. -/
theorem C22_heavy_weights_violated : (∀ w ∈ [2147483646, 100, 2147483646, 10], w < infWeight) ∧
    (heavySample.bind fun ch => do
      let q ← (ChQuery.new ch).addSource 0 0
      let q ← q.addTarget 3 0
      let q ← q.run
      let d ← q.getDistance
      let p ← q.getArcPath
      some (d, p)) = some (6, [0, 2, 3]) ∧
    IsDist (listArcs [0, 0, 1, 2] [1, 3, 2, 3] [2147483646, 100, 2147483646, 10]) 0 3 100 := by
  refine ⟨by decide, by decide +kernel, ⟨[1], by simpa using Walk.cons (⟨rfl, rfl, rfl⟩ :
    listArcs [0, 0, 1, 2] [1, 3, 2, 3] [2147483646, 100, 2147483646, 10] 1 0 3 100) (Walk.nil 3)⟩, ?_⟩
  intro p l hw
  have := walk_potential (pot := fun x => if x = 0 then 0 else if x = 3 then 100 else 90) (by
    rintro a x y w ⟨h1, h2, h3⟩
    have ha : a < 4 := rd_some_lt (v := [0, 0, 1, 2]) h1
    have : a = 0 ∨ a = 1 ∨ a = 2 ∨ a = 3 := by omega
    rcases this with rfl | rfl | rfl | rfl <;> (simp at h1 h2 h3; subst h1; subst h2; subst h3; decide)) hw
  simpa using this

end RK.Props
