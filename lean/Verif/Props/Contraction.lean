import Verif.Proof.ContractDist
/-! # Property theorem C21 (contraction_hierarchy.cpp, contraction of a node) -/
namespace RK.Props
open Spec WitnessSearch

/-- The arcs of the remaining graph. The id of an arc is its position in the list of its tail. -/
def remainingArcs (g : ChGraph) : ArcRel := fun a x y w =>
  ∃ (l : List ChArc) (arc : ChArc), g.out[x]? = some l ∧ l[a]? = some arc ∧ arc.node = y ∧ arc.weight = w

/-- Arcs at a node that is contracted may weigh at most this much, `(2^32 - 1) / 12`, so that the 32-bit
sums of the witness search do not wrap. -/
def lightWeight : Nat := 357913941

/-- All arcs entering and leaving `v` weigh at most `lightWeight`. -/
def LightAt (g : ChGraph) (v : Nat) : Prop :=
  ∀ a x y w, remainingArcs g a x y w → x = v ∨ y = v → w ≤ lightWeight

/-- The states that occur while a hierarchy is built: start with a graph without loops and multi-arcs
(see C20), then contract nodes, estimate importances and raise levels in any order. -/
inductive ContractionRun (n maxPop : Nat) : ChGraph × WitnessSearch → Prop
  | start {tail head weight : List Nat} {g : ChGraph} :
      head.length = tail.length → weight.length = tail.length →
      (∀ x ∈ tail, x < n) → (∀ x ∈ head, x < n) → (∀ w ∈ weight, w ≤ 2 * lightWeight) →
      (∀ a x y w, listArcs tail head weight a x y w → x ≠ y) → StrictlySorted tail head →
      ChGraph.new n tail head weight = some g → ContractionRun n maxPop (g, WitnessSearch.new n maxPop)
  | contract {s s' : ChGraph × WitnessSearch} {v : Nat} : ContractionRun n maxPop s → v < n →
      LightAt s.1 v → contractNode s v = some s' → ContractionRun n maxPop s'
  | estimate {s : ChGraph × WitnessSearch} {w : WitnessSearch} {v k : Nat} : ContractionRun n maxPop s →
      v < n → estimateNodeImportance s.1 s.2 v = some (w, k) → ContractionRun n maxPop (s.1, w)
  | level {s : ChGraph × WitnessSearch} {g : ChGraph} {v k : Nat} : ContractionRun n maxPop s →
      s.1.raiseLevel v k = some g → ContractionRun n maxPop (g, s.2)

theorem ContractionRun.inv {n maxPop : Nat} (hn : n ≤ MinIDQueue.maxIds) {s : ChGraph × WitnessSearch}
    (h : ContractionRun n maxPop s) : ∃ A, GRep s.1 n A ∧ Idle s.2 n ∧
      (∀ x y i, A x y = some i → i.weight ≤ 2 * lightWeight) ∧ s.2.maxPop = maxPop := by
  induction h with
  | @start tail head weight g h1 h2 h3 h4 h5 h6 h7 h8 =>
    have ha : ∀ a, a < tail.length → listArcs tail head weight a (fn tail a) (fn head a) (fn weight a) :=
      fun a ha => ⟨rd_fn ha, rd_fn (by omega), rd_fn (by omega)⟩
    obtain ⟨g', A, e, hg, hA⟩ := ChGraph.new_spec (n := n) (m := tail.length) (tail := tail) (head := head)
      (weight := weight) rfl h1 h2 (fun a h => h3 _ (List.mem_of_getElem? (ha a h).1))
      (fun a h => h4 _ (List.mem_of_getElem? (ha a h).2.1)) (fun a h => h6 _ _ _ _ (ha a h)) (by
        intro a b hal hbl e1 e2
        rcases Nat.lt_trichotomy a b with hab | hab | hab
        · have := h7 a b _ _ _ _ hab (ha a hal).1 (ha b hbl).1 (ha a hal).2.1 (ha b hbl).2.1; omega
        · exact hab
        · have := h7 b a _ _ _ _ hab (ha b hbl).1 (ha a hal).1 (ha b hbl).2.1 (ha a hal).2.1; omega)
    rw [h8] at e; cases e
    refine ⟨A, hg, WitnessSearch.idle_new hn, ?_, rfl⟩
    intro x y i hi
    obtain ⟨a, hal, _, _, rfl⟩ := (hA x y i).1 hi
    exact h5 _ (List.mem_of_getElem? (ha a hal).2.2)
  | @contract s s' v _ hv hl e ih =>
    obtain ⟨A, hg, hw, hW, hmp⟩ := ih
    obtain ⟨g', w', A', e', hg', hw', hmp', _, hC, _⟩ := contractNode_spec (M := lightWeight) hg hw hv hW (by
      rintro x i (hi | hi)
      · obtain ⟨a, ha⟩ := (hg.arcs x v i.weight).2 ⟨i, hi, rfl⟩
        exact hl a _ _ _ ha (Or.inr rfl)
      · obtain ⟨a, ha⟩ := (hg.arcs v x i.weight).2 ⟨i, hi, rfl⟩
        exact hl a _ _ _ ha (Or.inl rfl)) (by decide)
    rw [e] at e'; cases e'
    refine ⟨A', hg', hw', ?_, hmp'.trans hmp⟩
    intro x y i hi
    rcases hC.origin x y i hi with h | ⟨i1, i2, h1, h2, rfl⟩
    · exact hW x y i h
    · obtain ⟨a, ha⟩ := (hg.arcs x v i1.weight).2 ⟨i1, h1, rfl⟩
      obtain ⟨b, hb⟩ := (hg.arcs v y i2.weight).2 ⟨i2, h2, rfl⟩
      have := hl a _ _ _ ha (Or.inr rfl)
      have := hl b _ _ _ hb (Or.inl rfl)
      simp only [shortcut]; omega
  | @estimate s w v k _ hv e ih =>
    obtain ⟨A, hg, hw, hW, hmp⟩ := ih
    obtain ⟨h1, h2⟩ := estimate_idle' hg hv hW (by decide) hw e
    exact ⟨A, hg, h1, hW, h2.trans hmp⟩
  | level _ e ih =>
    obtain ⟨A, hg, hw, hW, hmp⟩ := ih
    exact ⟨A, hg.raise e, hw, hW, hmp⟩

/-- C21. In every state of the construction, contracting a node `v` succeeds whatever the pop limit is.
Afterwards no arc touches `v`, and the distance between any two other nodes is the same as before. -/
theorem C21_distances_preserved (n maxPop : Nat) (hn : n ≤ 2 ^ 30) (s : ChGraph × WitnessSearch)
    (hs : ContractionRun n maxPop s) (v : Nat) (hv : v < n) (hl : LightAt s.1 v) :
    ∃ s', contractNode s v = some s' ∧
      (∀ a x y w, remainingArcs s'.1 a x y w → x ≠ v ∧ y ≠ v) ∧
      ∀ x y d, x ≠ v → y ≠ v → (IsDist (remainingArcs s'.1) x y d ↔ IsDist (remainingArcs s.1) x y d) := by
  obtain ⟨A, hg, hw, hW, _⟩ := hs.inv hn
  obtain ⟨g', w', A', e', hg', hw', _, _, hC, _⟩ := contractNode_spec (M := lightWeight) hg hw hv hW (by
      rintro x i (hi | hi)
      · obtain ⟨a, ha⟩ := (hg.arcs x v i.weight).2 ⟨i, hi, rfl⟩
        exact hl a _ _ _ ha (Or.inr rfl)
      · obtain ⟨a, ha⟩ := (hg.arcs v x i.weight).2 ⟨i, hi, rfl⟩
        exact hl a _ _ _ ha (Or.inl rfl)) (by decide)
  refine ⟨_, e', ?_, ?_⟩
  · intro a x y w h
    obtain ⟨i, hi, _⟩ := (hg'.arcs x y w).1 ⟨a, h⟩
    exact hC.avoid x y i hi
  · intro x y d hx hy
    rw [isDist_iff (R := remainingArcs g') (Q := mapR A') (fun x y w => hg'.arcs x y w),
      isDist_iff (R := remainingArcs s.1) (Q := mapR A) (fun x y w => hg.arcs x y w)]
    exact dist_congr (fun l h => ⟨l, Nat.le_refl _, hC.back h⟩)
      (fun l h => (hC.walk hg.irrefl h hy).1 hx) d

/-- C21. For each path `x, v, y` of length `w1 + w2` over the contracted node there is afterwards an arc or
a path of at most that length that does not use `v`. All arcs between other nodes are kept or get lighter,
and each new or lighter arc is such a path `x, v, y` with exactly its length. -/
theorem C21_shortcuts (n maxPop : Nat) (hn : n ≤ 2 ^ 30) (s : ChGraph × WitnessSearch)
    (hs : ContractionRun n maxPop s) (v : Nat) (hv : v < n) (hl : LightAt s.1 v) :
    ∃ s', contractNode s v = some s' ∧
      (∀ a b x y w1 w2, remainingArcs s.1 a x v w1 → remainingArcs s.1 b v y w2 → x ≠ y →
        ∃ p l, Walk (remainingArcs s'.1) x p y l ∧ l ≤ w1 + w2) ∧
      (∀ a x y w, remainingArcs s.1 a x y w → x ≠ v → y ≠ v →
        ∃ a' w', remainingArcs s'.1 a' x y w' ∧ w' ≤ w) ∧
      (∀ a x y w, remainingArcs s'.1 a x y w → (∃ b, remainingArcs s.1 b x y w) ∨
        ∃ b c w1 w2, remainingArcs s.1 b x v w1 ∧ remainingArcs s.1 c v y w2 ∧ w = w1 + w2) := by
  obtain ⟨A, hg, hw, hW, _⟩ := hs.inv hn
  obtain ⟨g', w', A', e', hg', hw', _, _, hC, _⟩ := contractNode_spec (M := lightWeight) hg hw hv hW (by
      rintro x i (hi | hi)
      · obtain ⟨a, ha⟩ := (hg.arcs x v i.weight).2 ⟨i, hi, rfl⟩
        exact hl a _ _ _ ha (Or.inr rfl)
      · obtain ⟨a, ha⟩ := (hg.arcs v x i.weight).2 ⟨i, hi, rfl⟩
        exact hl a _ _ _ ha (Or.inl rfl)) (by decide)
  refine ⟨_, e', ?_, ?_, ?_⟩
  · intro a b x y w1 w2 h1 h2 hxy
    obtain ⟨i1, hi1, rfl⟩ := (hg.arcs x v w1).1 ⟨a, h1⟩
    obtain ⟨i2, hi2, rfl⟩ := (hg.arcs v y w2).1 ⟨b, h2⟩
    obtain ⟨l, hle, hwk⟩ := hC.bridge x y i1 i2 hi1 hi2 hxy
    obtain ⟨p, hp⟩ := (walk_iff (R := remainingArcs g') (Q := mapR A') (fun x y w => hg'.arcs x y w) x y l).2 hwk
    exact ⟨p, l, hp, hle⟩
  · intro a x y w h hx hy
    obtain ⟨i, hi, rfl⟩ := (hg.arcs x y w).1 ⟨a, h⟩
    obtain ⟨i', hi', hle⟩ := hC.dom x y i hi hx hy
    obtain ⟨a', ha'⟩ := (hg'.arcs x y i'.weight).2 ⟨i', hi', rfl⟩
    exact ⟨a', _, ha', hle⟩
  · intro a x y w h
    obtain ⟨i, hi, rfl⟩ := (hg'.arcs x y w).1 ⟨a, h⟩
    rcases hC.origin x y i hi with h | ⟨i1, i2, h1, h2, rfl⟩
    · exact Or.inl ((hg.arcs x y i.weight).2 ⟨i, h, rfl⟩)
    · obtain ⟨b, hb⟩ := (hg.arcs x v i1.weight).2 ⟨i1, h1, rfl⟩
      obtain ⟨c, hc⟩ := (hg.arcs v y i2.weight).2 ⟨i2, h2, rfl⟩
      exact Or.inr ⟨b, c, _, _, hb, hc, rfl⟩

/-- A graph in which contracting node 1 adds the shortcut 0 -> 2, but none from 0 to 3. -/
def exampleGraph : Option ChGraph := ChGraph.new 4 [0, 0, 1, 1] [1, 3, 2, 3] [2, 4, 5, 7]

example : (exampleGraph.bind fun g => contractNode (g, WitnessSearch.new 4 500) 1).map (·.1.out) =
    some [[⟨3, 4, 1, invalidId⟩, ⟨2, 7, 2, 1⟩], [], [], []] := by decide +kernel

example : ∃ g, exampleGraph = some g ∧ ContractionRun 4 500 (g, WitnessSearch.new 4 500) ∧ LightAt g 1 := by
  have h : ∃ g, exampleGraph = some g ∧ g.out = [[⟨1, 2, 1, invalidId⟩, ⟨3, 4, 1, invalidId⟩],
    [⟨2, 5, 1, invalidId⟩, ⟨3, 7, 1, invalidId⟩], [], []] := ⟨_, rfl, by decide⟩
  obtain ⟨g, hg, ho⟩ := h
  refine ⟨g, hg, .start (tail := [0, 0, 1, 1]) (head := [1, 3, 2, 3]) (weight := [2, 4, 5, 7]) rfl rfl
    (by decide) (by decide) (by decide) ?_ ?_ hg, ?_⟩
  · rintro a x y w ⟨h1, h2, _⟩
    have ha : a < 4 := rd_some_lt (v := [0, 0, 1, 1]) h1
    have : a = 0 ∨ a = 1 ∨ a = 2 ∨ a = 3 := by omega
    rcases this with rfl | rfl | rfl | rfl <;> (simp at h1 h2; omega)
  · intro i j t t' h h' hij h1 h2 h3 h4
    have hj : j < 4 := rd_some_lt (v := [0, 0, 1, 1]) h2
    have : (i = 0 ∧ (j = 1 ∨ j = 2 ∨ j = 3)) ∨ (i = 1 ∧ (j = 2 ∨ j = 3)) ∨ (i = 2 ∧ j = 3) := by omega
    rcases this with ⟨rfl, rfl | rfl | rfl⟩ | ⟨rfl, rfl | rfl⟩ | ⟨rfl, rfl⟩ <;>
      (simp at h1 h2 h3 h4; omega)
  · rintro a x y w ⟨l, arc, h1, h2, rfl, rfl⟩ _
    rw [ho] at h1
    have hx : x < 4 := rd_some_lt (v := [[_, _], [_, _], [], []]) h1
    have hm := List.mem_of_getElem? h2
    have : x = 0 ∨ x = 1 ∨ x = 2 ∨ x = 3 := by omega
    rcases this with rfl | rfl | rfl | rfl <;> (simp at h1; subst h1; simp at hm)
    · rcases hm with rfl | rfl <;> decide
    · rcases hm with rfl | rfl <;> decide

end RK.Props
