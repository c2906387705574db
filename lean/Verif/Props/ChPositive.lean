import Verif.Props.ChArcs
import Verif.Props.Agreement
import Verif.Proof.ChSimple
/-! # Property theorems C68, C78, C81 for graphs without cycles of weight zero -/
namespace RK.Props
open RK _root_.Spec

/-- Two different nodes never have walks of length 0 in both directions. -/
def NoZeroCycles (A : ArcRel) : Prop := ∀ x y p q, Walk A x p y 0 → Walk A y q x 0 → x = y

/-- In particular this holds if all weights are positive. -/
theorem noZeroCycles_of_positive {A : ArcRel} (h : ∀ a x y w, A a x y w → 1 ≤ w) : NoZeroCycles A := by
  intro x y p q h1 _
  generalize hl : (0 : Nat) = l at h1
  cases h1 with
  | nil => rfl
  | cons ha _ => have := h _ _ _ _ ha; omega

/-- If there are no cycles of weight 0 and the witness searches may pop every node in both directions, then every shortcut is a simple
path. So the weights are at most the number of nodes times the largest weight. -/
theorem C78_positive_graphs_fit (G : QGraph) (tail head weight : List Nat) (h : GraphInput G tail head weight)
    (hz : NoZeroCycles G.arcs) (maxPop W : Nat) (hpop : 2 * G.n ≤ maxPop) (hW : ∀ w ∈ weight, w ≤ W) (hn : G.n ≤ 65535)
    (hfit : G.n * W ≤ lightArc) :
    StatesFit G.n tail head weight maxPop ∧ (G.n ≤ 46340 → HopsFit G.n tail head weight maxPop) := by
  have key : ∀ g, startGraph G.n tail head weight = some g → ∀ C s, BuildRun G.n g maxPop C s →
      s.Fits G.n lightArc ∧ (1 + 2 * (G.n * G.n) < 2 ^ 32 → s.HopsFit) := by
    intro g hg C s hr
    obtain ⟨A0, hgr, hA, _⟩ := startGraph_rep h.head_len h.weight_len h.tail_lt h.head_lt h.size' hg
    have hwalk : ∀ x y l, RWalk (mapR A0) x y l → ∃ p, Walk G.arcs x p y l := by
      intro x y l hw
      rw [h.arcs]
      exact (walk_iff (Q := fun x y w => ∃ a, listArcs tail head weight a x y w) (fun _ _ _ => Iff.rfl) x y l).2
        (hw.mono (by rintro x y w ⟨i, hi, rfl⟩; exact (hA x y i hi).2.2))
    have hnull : NoNullCycle A0 := by
      intro x y h1 h2
      obtain ⟨p, hp⟩ := hwalk _ _ _ h1
      obtain ⟨q, hq⟩ := hwalk _ _ _ h2
      exact hz x y p q hp hq
    refine hr.fits (M := lightArc) (H := G.n) (SimplePaths A0 G.n W) hn hgr (by decide) (SimplePaths.init ?_)
      (fun C A v A' hJ hv hvC hs => hJ.step hnull hpop hv hvC hs)
      (fun C A hJ _ x y i hi => by
        obtain ⟨a, b⟩ := hJ.le x y i hi
        exact ⟨by omega, b⟩)
    intro x y i hi
    exact ⟨(hgr.dom x y i hi).1, hW _ (hA x y i hi).2.1, by rw [(hA x y i hi).1]⟩
  refine ⟨fun g hg C s hr => (key g hg C s hr).1, fun hn' g hg C s hr => (key g hg C s hr).2 ?_⟩
  have : G.n * G.n ≤ 46340 * 46340 := Nat.mul_le_mul hn' hn'
  omega

/-- C78, whole statement for graphs without cycles of weight 0: all three functions return. -/
theorem C78_positive_graphs (G : QGraph) (tail head weight : List Nat) (h : GraphInput G tail head weight)
    (hz : NoZeroCycles G.arcs) (asserts : Bool) (maxPop W : Nat) (junkF junkB : Nat → Word)
    (hne : asserts = true → tail ≠ []) (hpop : 2 * G.n ≤ maxPop) (hW : ∀ w ∈ weight, w ≤ W) (hn : G.n ≤ 65535)
    (hfit : G.n * W ≤ lightArc) :
    (∀ p : List Nat, IsPermutation p → p.length = G.n →
      (∃ ch, Ch.buildGivenRank asserts p tail head weight maxPop junkF junkB = some ch ∧ BuiltFor ch G) ∧
      (∃ ch, Ch.buildGivenOrder asserts p tail head weight maxPop junkF junkB = some ch ∧ BuiltFor ch G)) ∧
    (G.n ≤ 46340 → ∃ ch, Ch.build asserts G.n tail head weight maxPop junkF junkB = some ch ∧ BuiltFor ch G) := by
  obtain ⟨h1, h2⟩ := C78_positive_graphs_fit G tail head weight h hz maxPop W hpop hW hn hfit
  exact ⟨fun p hp hl => ⟨C78_build_given_rank_returns G tail head weight h p hp hl asserts maxPop junkF junkB hne h1,
      C78_build_given_order_returns G tail head weight h p hp hl asserts maxPop junkF junkB hne h1⟩,
    fun hn' => C78_build_returns G tail head weight h asserts maxPop junkF junkB hne h1 (h2 hn')⟩

/-- C81 for all graphs without cycles of weight 0, if the witness searches are not cut off. -/
theorem C81_positive_graphs (n : Nat) (firstOut tail head weight : List Nat) (csr : IsCSR n firstOut head) (htails : tail.length = head.length)
    (hown : ∀ (x a : Nat), OutArc firstOut x a → tail[a]? = some x) (hweights : weight.length = head.length) (hsize : head.length < 2 ^ 31)
    (hz : NoZeroCycles (listArcs tail head weight))
    (W : Nat) (hW : ∀ w ∈ weight, w ≤ W) (hpos : n ≠ 0) (hn : n ≤ 65535) (hfit : n * W ≤ lightArc)
    (asserts : Bool) (maxPop : Nat) (hpop : 2 * n ≤ maxPop) (junkF junkB : Nat → Word) (hne : asserts = true → tail ≠ [])
    (chOrder : List Nat) (hp1 : IsPermutation chOrder) (hl1 : chOrder.length = n)
    (cchOrder : List Nat) (hp2 : IsPermutation cchOrder) (hl2 : cchOrder.length = n)
    (callable filter : Bool) (hlog : callable = true ∨ filter = true) (junk : Nat → Nat → Word) :
    ∃ ch c m, Ch.buildGivenOrder asserts chOrder tail head weight maxPop junkF junkB = some ch ∧
      Cch.build cchOrder tail head callable filter junk = some c ∧ (Metric.new c).customize c weight = some m ∧
      ∀ addr s t, s < n → t < n → ∃ d, dijkstraDistance n firstOut tail head weight s t = some d ∧ chDistance ch s t = some d ∧
        cchDistance ⟨addr, c, m, weight⟩ s t = some d ∧
        (IsDist (openArcs firstOut head weight) s t d ∨ ¬ Reachable (openArcs firstOut head weight) s t ∧ d = 2147483647) := by
  have hla : lightArc = 357913941 := rfl
  have hWs : W ≤ lightArc := Nat.le_trans (Nat.le_mul_of_pos_left W (by omega)) hfit
  have hw : ∀ w ∈ weight, w ≤ 2 * lightArc := fun w hx => by have := hW w hx; omega
  have h : PlainGraph n firstOut tail head weight :=
    ⟨csr, by omega, hsize, htails, hown, hweights, W, fun w hx _ => hW w hx, by omega⟩
  have hin : GraphInput ⟨n, listArcs tail head weight⟩ tail head weight :=
    ⟨rfl, htails.symm, by rw [hweights, htails], isTail_lt csr ⟨htails, hown⟩,
      fun x hx => by
        obtain ⟨a, ha⟩ := List.getElem?_of_mem hx
        exact csr.head_lt a x ha,
      hw, h.nodes, by rw [htails]; omega⟩
  obtain ⟨h2, _⟩ := C78_positive_graphs ⟨n, listArcs tail head weight⟩ tail head weight hin hz asserts maxPop W junkF junkB hne hpop hW hn hfit
  obtain ⟨_, ch, e, hch⟩ := h2 chOrder hp1 hl1
  obtain ⟨c, m, e1, e2, e3⟩ := built_agree h hn hpos hw hch cchOrder hp2 hl2 callable filter hlog junk
  exact ⟨ch, c, m, e, e1, e2, e3⟩

/-- C68 for graphs with at most 250 nodes and without cycles of weight 0: the tool for the construction uses a limit of 500 for the
witness searches. -/
theorem C68_positive_graphs (asserts : Bool) (junkF junkB : Nat → Word) (pad : List Byte) (hpad : pad.length = 4)
    (disk : Disk) (ho : disk.canOpen = true) (hr : 1006840 ≤ disk.room) (n : Nat) (firstOut head weight : List Nat)
    (hG : ToolGraph n firstOut head weight) (hz : NoZeroCycles (csrArcs firstOut head weight)) (W : Nat)
    (hW : ∀ w ∈ weight, w ≤ W) (hn : n ≤ 250) (hfit : n * W ≤ lightArc) :
    ∃ file, toolComputeCh asserts false junkF junkB pad disk firstOut head weight = .ok file ∧
      ∀ source target, QueryFiles n source target →
        ∃ distance, toolRunChQuery false (some file) source target = .ok distance ∧
          Answers (CappedDistance (csrArcs firstOut head weight)) source target distance := by
  obtain ⟨tail, _, ht⟩ := invert_tail hG.csr
  have hne : tail ≠ [] := fun e => hG.nonempty (List.length_eq_zero_iff.1 (by rw [← ht.1, e]; rfl))
  have hn0 : n ≠ 0 := by
    obtain ⟨x, hx⟩ := List.exists_mem_of_ne_nil _ hne
    have := isTail_lt hG.csr ht x hx
    omega
  have hWs : W ≤ lightArc := Nat.le_trans (Nat.le_mul_of_pos_left W (by omega)) hfit
  have hw : ∀ w ∈ weight, w ≤ 2 * lightArc := fun w h => by have := hW w h; omega
  obtain ⟨_, h2⟩ := C78_positive_graphs _ tail head weight (toolGraph_input hG ht hw) hz asserts 500 W junkF junkB
    (fun _ => hne) (by show 2 * n ≤ 500; omega) hW (by show n ≤ 65535; omega) hfit
  obtain ⟨ch, hb, hbf⟩ := h2 (by show n ≤ 46340; omega)
  have hbound : fileBound n ≤ 1006840 := by
    have : n * (n - 1) ≤ 250 * 249 := Nat.mul_le_mul hn (by omega)
    unfold fileBound
    generalize n * (n - 1) = k at *
    omega
  exact C68_compute_and_query_partial asserts false junkF junkB pad hpad disk n firstOut head weight hG hw ch
    (toolHierarchy hG (by omega) ht ho (by omega) hb hbf (builtFor_light hbf))

/-! ### Examples -/

/-- The sample of C22 meets the hypotheses: all weights are positive, but some arcs are longer than the distance of their ends. -/
example : ∃ tail head weight, GraphInput sampleChGraph tail head weight ∧ NoZeroCycles sampleChGraph.arcs ∧ (true = true → tail ≠ []) ∧
    2 * sampleChGraph.n ≤ 500 ∧ (∀ w ∈ weight, w ≤ 7) ∧ sampleChGraph.n ≤ 46340 ∧ sampleChGraph.n * 7 ≤ lightArc := by
  refine ⟨[0, 0, 1, 1, 2, 3, 3, 4], [1, 2, 2, 3, 3, 4, 0, 3], [4, 1, 1, 5, 7, 1, 2, 2],
    ⟨rfl, rfl, rfl, by decide, by decide, by decide, by decide, by decide⟩, noZeroCycles_of_positive ?_, by decide, by decide, by decide,
    by decide, by decide⟩
  intro a x y w h
  exact (by decide : ∀ w ∈ [4, 1, 1, 5, 7, 1, 2, 2], 1 ≤ w) w (List.mem_of_getElem? h.2.2)

/-- Arcs of weight 0 are allowed: a path of such arcs, and an arc back. -/
example : NoZeroCycles (listArcs [0, 1, 2] [1, 2, 0] [0, 0, 3]) := by
  have pot : ∀ x y p l, Walk (listArcs [0, 1, 2] [1, 2, 0] [0, 0, 3]) x p y l → l = 0 → x ≤ y := by
    intro x y p l h
    induction h with
    | nil => intro _; exact Nat.le_refl _
    | @cons a s mid t w l p ha _ ih =>
      intro hl
      have h2 := ih (by omega)
      obtain ⟨h1, h3, h4⟩ := ha
      have : a < 3 := rd_some_lt (v := [0, 1, 2]) h1
      have : a = 0 ∨ a = 1 ∨ a = 2 := by omega
      rcases this with rfl | rfl | rfl <;> (simp at h1 h3 h4; omega)
  intro x y p q h1 h2
  exact Nat.le_antisymm (pot _ _ _ _ h1 rfl) (pot _ _ _ _ h2 rfl)

end RK.Props
