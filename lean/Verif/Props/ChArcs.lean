import Verif.Props.CchPerfect
import Verif.Props.ChTotal
import Verif.Props.Tools
/-!
# C82: the arcs of a hierarchy

All construction functions return hierarchies without loops and without parallel arcs. So there are at most `n (n - 1) / 2` arcs in each
direction; together with C78 (constructions return) this removes from C35 and C68 (saving a hierarchy, command line tools) all
conditions on the hierarchy, for small graphs.
-/
namespace RK.Props
open RK _root_.Spec

/-- Every arc leads to a node that is contracted later. -/
def LeadsUp (firstOut head : List Nat) : Prop := ∀ x a y : Nat, OutArc firstOut x a → head[a]? = some y → x < y

theorem hierarchyFor_hierOk {ch : Ch} {G : QGraph} (h : HierarchyFor ch G) : HierOk ch G := by
  rcases h with h | ⟨asserts, c, w, old, m, h, e⟩
  · exact h.hierOk
  · obtain ⟨ch', _, _, _, e', _, _, _, _, _, _, _, _, hok⟩ := perfect_spec h asserts
    rw [e] at e'
    cases e'
    exact hok

/-- A graph whose arcs lead up and are sorted without duplicates has at most `n (n - 1) / 2` arcs. -/
theorem count_le {n : Nat} {firstOut head : List Nat} (h : IsCSR n firstOut head) (hs : SortedWithoutDuplicates firstOut head)
    (hu : LeadsUp firstOut head) : 2 * head.length ≤ n * (n - 1) := by
  have key : ∀ x b, x ≤ n → firstOut[x]? = some b → 2 * b + x * x ≤ x * (2 * n - 1) := by
    intro x
    induction x with
    | zero =>
      intro b _ hb
      have := hb.symm.trans h.first
      cases this
      simp
    | succ x ih =>
      intro e hx he
      obtain ⟨b, hb⟩ : ∃ b, firstOut[x]? = some b := ⟨_, List.getElem?_eq_getElem (by rw [h.length]; omega)⟩
      have h1 := ih b (by omega) hb
      have hbe := h.mono x b e hb he
      have hlen : e ≤ head.length := by
        clear ih h1 hbe hb
        have : ∀ k y c, x + 1 + k = y → y ≤ n → firstOut[y]? = some c → e ≤ c := by
          intro k
          induction k with
          | zero => intro y c hy _ hc; subst hy; rw [Nat.add_zero, he] at hc; cases hc; exact Nat.le_refl _
          | succ k ihk =>
            intro y c hy hyn hc
            obtain ⟨d, hd⟩ : ∃ d, firstOut[x + 1 + k]? = some d := ⟨_, List.getElem?_eq_getElem (by rw [h.length]; omega)⟩
            have := ihk _ d rfl (by omega) hd
            have := h.mono (x + 1 + k) d c hd (by rw [← hc, ← hy]; rfl)
            omega
        exact this (n - (x + 1)) n _ (by omega) (Nat.le_refl _) h.last
      have hrow : ∀ k, b + k < e → ∃ y, head[b + k]? = some y ∧ x + 1 + k ≤ y ∧ y < n := by
        intro k
        induction k with
        | zero =>
          intro hk
          obtain ⟨y, hy⟩ : ∃ y, head[b + 0]? = some y := ⟨_, List.getElem?_eq_getElem (by omega)⟩
          have := hu x (b + 0) y ⟨b, e, hb, he, by omega, hk⟩ hy
          exact ⟨y, hy, by omega, h.head_lt _ _ hy⟩
        | succ k ihk =>
          intro hk
          obtain ⟨y, hy, h2, _⟩ := ihk (by omega)
          obtain ⟨z, hz⟩ : ∃ z, head[b + (k + 1)]? = some z := ⟨_, List.getElem?_eq_getElem (by omega)⟩
          have := hs x (b + k) (b + (k + 1)) y z ⟨b, e, hb, he, by omega, by omega⟩ ⟨b, e, hb, he, by omega, hk⟩ (by omega) hy hz
          exact ⟨z, hz, by omega, h.head_lt _ _ hz⟩
      have hcount : e + x + 1 ≤ b + n := by
        rcases Nat.eq_or_lt_of_le hbe with rfl | hlt
        · omega
        · obtain ⟨y, _, h2, h3⟩ := hrow (e - b - 1) (by omega)
          omega
      have hn : 1 ≤ n := by omega
      have e1 : (x + 1) * (x + 1) = x * x + 2 * x + 1 := by ring
      have e2 : (x + 1) * (2 * n - 1) = x * (2 * n - 1) + (2 * n - 1) := by ring
      rw [e1, e2]
      omega
  have := key n _ (Nat.le_refl _) h.last
  rcases Nat.eq_zero_or_pos n with rfl | hn
  · simpa using this
  · have e1 : n * (2 * n - 1) = n * (n - 1) + n * n := by
      rw [← Nat.mul_add]; congr 1; omega
    omega

/-- C82: whichever function built the hierarchy, all arcs in both directions lead to nodes that are contracted later (so there are no
loops), they are sorted by their heads, no two arcs with the same tail have the same head, and there are at most `n (n - 1) / 2` of them. -/
theorem C82_arcs (ch : Ch) (G : QGraph) (h : HierarchyFor ch G) :
    IsCSR G.n ch.forward.firstOut ch.forward.head ∧ IsCSR G.n ch.backward.firstOut ch.backward.head ∧
      LeadsUp ch.forward.firstOut ch.forward.head ∧ LeadsUp ch.backward.firstOut ch.backward.head ∧
      SortedWithoutDuplicates ch.forward.firstOut ch.forward.head ∧ SortedWithoutDuplicates ch.backward.firstOut ch.backward.head ∧
      2 * ch.forward.head.length ≤ G.n * (G.n - 1) ∧ 2 * ch.backward.head.length ≤ G.n * (G.n - 1) := by
  have hok := (hierarchyFor_hierOk h).ok
  have uF : LeadsUp ch.forward.firstOut ch.forward.head := by
    intro x a y hx hy
    obtain ⟨w, hw⟩ := rd_isSome (v := ch.forward.weight) (i := a) (by rw [hok.fwd.weight]; exact rd_some_lt (v := ch.forward.head) hy)
    exact (hok.arcF ⟨hx, hy, hw⟩).1
  have uB : LeadsUp ch.backward.firstOut ch.backward.head := by
    intro x a y hx hy
    obtain ⟨w, hw⟩ := rd_isSome (v := ch.backward.weight) (i := a) (by rw [hok.bwd.weight]; exact rd_some_lt (v := ch.backward.head) hy)
    exact (hok.arcB ⟨hx, hy, hw⟩).1
  exact ⟨hok.fwd.csr, hok.bwd.csr, uF, uB, hok.fwd.strict, hok.bwd.strict, count_le hok.fwd.csr hok.fwd.strict uF,
    count_le hok.bwd.csr hok.bwd.strict uB⟩

/-- The size of the file of a hierarchy for `n` nodes is at most this many bytes. -/
def fileBound (n : Nat) : Nat := 24 + 4 * (3 * n + 2 + 4 * (n * (n - 1))) + 128 * ((n * (n - 1) / 2 + 511) / 512)

theorem file_fits {ch : Ch} {G : QGraph} (h : HierarchyFor ch G) :
    3 * ch.rank.length + 2 + 4 * ch.forward.head.length + 4 * ch.backward.head.length ≤ 3 * G.n + 2 + 4 * (G.n * (G.n - 1)) ∧
    24 + 4 * (3 * ch.rank.length + 2 + 4 * ch.forward.head.length + 4 * ch.backward.head.length) +
      64 * ((ch.forward.head.length + 511) / 512) + 64 * ((ch.backward.head.length + 511) / 512) ≤ fileBound G.n := by
  obtain ⟨_, _, _, _, _, _, h1, h2⟩ := C82_arcs ch G h
  have hr := (hierarchyFor_hierOk h).ok.rankLen
  unfold fileBound
  rw [hr]
  generalize G.n * (G.n - 1) = k at *
  have f1 : (ch.forward.head.length + 511) / 512 ≤ (k / 2 + 511) / 512 := Nat.div_le_div_right (by omega)
  have f2 : (ch.backward.head.length + 511) / 512 ≤ (k / 2 + 511) / 512 := Nat.div_le_div_right (by omega)
  omega

/-- C35 for graphs with at most 32767 nodes, all arcs light: every hierarchy can be saved, and loading the file yields a hierarchy with
the same contents. No condition on the number of arcs is left. -/
theorem C35_built_round_trip (pad : List Byte) (hp : pad.length = 4) (ch : Ch) (G : QGraph) (h : BuiltFor ch G) (hn : G.n ≤ 32767)
    (d : Disk) (ho : d.canOpen = true) (hr : fileBound G.n ≤ d.room) :
    ∃ f ch' OF OB, saveCh false pad d ch = .ok f ∧ loadCh false (some f) = .ok ch' ∧ SameHierarchy ch ch' OF OB := by
  obtain ⟨tail, head, weight, OF, OB, hi, hf, l1, l2⟩ := builtFor_full h
  obtain ⟨h1, h2⟩ := file_fits (Or.inl h)
  have hs : G.n * (G.n - 1) ≤ 32767 * 32766 := Nat.mul_le_mul hn (by omega)
  obtain ⟨f, ch', e1, e2, e3⟩ := C35_file_round_trip_partial false pad hp ch OF OB (hf.storable (by omega) hi.size l1 l2) (Or.inl rfl)
    (by omega) d ho (by omega)
  exact ⟨f, ch', OF, OB, e1, e2, e3⟩

/-- The preconditions of the command line tools hold for every hierarchy of a graph with at most 32767 nodes. -/
theorem toolHierarchy {asserts : Bool} {junkF junkB : Nat → Word} {disk : Disk} {n : Nat} {firstOut head weight tail : List Nat} {ch : Ch}
    (hG : ToolGraph n firstOut head weight) (hn : n ≤ 32767) (ht : IsTail firstOut head tail) (ho : disk.canOpen = true)
    (hr : fileBound n ≤ disk.room) (hb : Ch.build asserts n tail head weight 500 junkF junkB = some ch)
    (h : BuiltFor ch ⟨n, csrArcs firstOut head weight⟩) (hl : (∀ w ∈ ch.forward.weight, w ≤ lightArc) ∧ ∀ w ∈ ch.backward.weight, w ≤ lightArc) :
    ToolHierarchy asserts false junkF junkB disk n firstOut head weight ch := by
  obtain ⟨h1, h2⟩ := file_fits (Or.inl h)
  have hs : n * (n - 1) ≤ 32767 * 32766 := Nat.mul_le_mul hn (by omega)
  simp only at h1 h2
  exact ⟨⟨tail, ht.1, ht.2, hb⟩, hl.1, hl.2, Or.inl rfl, by omega, ho, by omega⟩

theorem toolGraph_input {n : Nat} {firstOut head weight tail : List Nat} (hG : ToolGraph n firstOut head weight) (ht : IsTail firstOut head tail)
    (hw : ∀ w ∈ weight, w ≤ 2 * lightArc) : GraphInput ⟨n, csrArcs firstOut head weight⟩ tail head weight :=
  ⟨(isTail_arcs hG.csr ht).symm, ht.1.symm, by rw [ht.1, hG.weights], isTail_lt hG.csr ht,
    fun x hx => by
      obtain ⟨a, ha⟩ := List.getElem?_of_mem hx
      exact hG.csr.head_lt a x ha,
    hw, hG.nodes, by rw [ht.1]; exact hG.size⟩

theorem builtFor_light {ch : Ch} {G : QGraph} (h : BuiltFor ch G) :
    (∀ w ∈ ch.forward.weight, w ≤ lightArc) ∧ ∀ w ∈ ch.backward.weight, w ≤ lightArc := by
  obtain ⟨_, _, _, _, _, _, _, _, _, h⟩ := h
  exact h

/-- C68 for small graphs with small weights, without any condition on the hierarchy: the construction tool returns and saves a file; on
that file the query tool answers all queries exactly. -/
theorem C68_small_graphs (asserts : Bool) (junkF junkB : Nat → Word) (pad : List Byte) (hpad : pad.length = 4)
    (disk : Disk) (ho : disk.canOpen = true) (hr : 10872 ≤ disk.room) (n : Nat) (firstOut head weight : List Nat)
    (hG : ToolGraph n firstOut head weight) (W : Nat) (hW : ∀ w ∈ weight, w ≤ W) (hn : n ≤ 26) (hfit : 2 ^ n * W ≤ lightArc) :
    ∃ file, toolComputeCh asserts false junkF junkB pad disk firstOut head weight = .ok file ∧
      ∀ source target, QueryFiles n source target →
        ∃ distance, toolRunChQuery false (some file) source target = .ok distance ∧
          Answers (CappedDistance (csrArcs firstOut head weight)) source target distance := by
  have hWs : W ≤ lightArc := Nat.le_trans (Nat.le_mul_of_pos_left W (by positivity)) hfit
  have hw : ∀ w ∈ weight, w ≤ 2 * lightArc := fun w h => by have := hW w h; omega
  obtain ⟨tail, _, ht⟩ := invert_tail hG.csr
  obtain ⟨⟨ch, hb, hbf⟩, _⟩ := C78_small_graphs _ tail head weight (toolGraph_input hG ht hw) asserts 500 W junkF junkB
    (fun _ e => hG.nonempty (List.length_eq_zero_iff.1 (by rw [← ht.1, e]; rfl))) hW hn hfit
  have hbound : fileBound n ≤ 10872 := by
    have : n * (n - 1) ≤ 26 * 25 := Nat.mul_le_mul hn (by omega)
    unfold fileBound
    generalize n * (n - 1) = k at *
    omega
  exact C68_compute_and_query_partial asserts false junkF junkB pad hpad disk n firstOut head weight hG hw ch
    (toolHierarchy hG (by omega) ht ho (by omega) hb hbf (builtFor_light hbf))

/-- C68 for graphs with at most 250 nodes and positive weights in which no arc is longer than the distance of its ends. -/
theorem C68_tight_graphs (asserts : Bool) (junkF junkB : Nat → Word) (pad : List Byte) (hpad : pad.length = 4)
    (disk : Disk) (ho : disk.canOpen = true) (hr : 1006840 ≤ disk.room) (n : Nat) (firstOut head weight : List Nat)
    (hG : ToolGraph n firstOut head weight) (htight : TightArcs (csrArcs firstOut head weight)) (W : Nat) (hpos : ∀ w ∈ weight, 1 ≤ w)
    (hW : ∀ w ∈ weight, w ≤ W) (hn : n ≤ 250) (hWs : W ≤ 34359) :
    ∃ file, toolComputeCh asserts false junkF junkB pad disk firstOut head weight = .ok file ∧
      ∀ source target, QueryFiles n source target →
        ∃ distance, toolRunChQuery false (some file) source target = .ok distance ∧
          Answers (CappedDistance (csrArcs firstOut head weight)) source target distance := by
  have hla : lightArc = 357913941 := rfl
  have hw : ∀ w ∈ weight, w ≤ 2 * lightArc := fun w h => by have := hW w h; omega
  have hnW : n * W ≤ 250 * 34359 := Nat.mul_le_mul hn hWs
  have hnnW : n * (n * W) ≤ 250 * (250 * 34359) := Nat.mul_le_mul hn hnW
  obtain ⟨tail, _, ht⟩ := invert_tail hG.csr
  obtain ⟨_, h2⟩ := C78_tight_graphs _ tail head weight (toolGraph_input hG ht hw) htight asserts 500 W junkF junkB
    (fun _ e => hG.nonempty (List.length_eq_zero_iff.1 (by rw [← ht.1, e]; rfl))) (by show 2 * n ≤ 500; omega) hW (by show n ≤ 65535; omega)
    (by show n * W ≤ lightArc; omega)
  obtain ⟨ch, hb, hbf⟩ := h2 hpos (by show 1 + 2 * (n * (n * W)) < 2 ^ 32; omega)
  have hbound : fileBound n ≤ 1006840 := by
    have : n * (n - 1) ≤ 250 * 249 := Nat.mul_le_mul hn (by omega)
    unfold fileBound
    generalize n * (n - 1) = k at *
    omega
  exact C68_compute_and_query_partial asserts false junkF junkB pad hpad disk n firstOut head weight hG hw ch
    (toolHierarchy hG (by omega) ht ho (by omega) hb hbf (builtFor_light hbf))

/-! ### Examples -/

example : ToolGraph 5 sampleFirstOut sampleHead sampleWeight ∧ (∀ w ∈ sampleWeight, w ≤ 9) ∧ 2 ^ 5 * 9 ≤ lightArc ∧ fileBound 26 = 10872 ∧
    fileBound 250 = 1006840 :=
  ⟨sampleTool_graph, by decide, by decide, by decide, by decide⟩

example : ∃ tail, IsTail [0, 3, 4, 6, 6] [1, 1, 2, 3, 3, 2] tail ∧ ToolGraph 4 [0, 3, 4, 6, 6] [1, 1, 2, 3, 3, 2] [1, 9, 1, 2, 2, 3] ∧
    TightArcs (csrArcs [0, 3, 4, 6, 6] [1, 1, 2, 3, 3, 2] [1, 9, 1, 2, 2, 3]) := by
  have hc : IsCSR 4 [0, 3, 4, 6, 6] [1, 1, 2, 3, 3, 2] := (csr_iff rfl).2 (by decide)
  obtain ⟨tail, e, ht⟩ := invert_tail hc
  have e' : invertInverseVector [0, 3, 4, 6, 6] = some [0, 0, 0, 1, 2, 2] := by decide
  rw [e] at e'
  cases e'
  refine ⟨_, ht, ⟨hc, by decide, by decide, by decide, rfl⟩, ?_⟩
  rw [← isTail_arcs hc ht]
  exact tightSample_tight

/-- A complete graph: the bound on the number of arcs is reached. -/
example : ((Ch.build true 3 [0, 0, 1, 1, 2, 2] [1, 2, 0, 2, 0, 1] [1, 1, 1, 1, 1, 1] 500 (fun _ => 0) (fun _ => 0)).map fun ch =>
    (ch.forward.firstOut, ch.forward.head, ch.backward.head.length)) = some ([0, 2, 3, 3], [1, 2, 2], 3) := by decide +kernel

end RK.Props
