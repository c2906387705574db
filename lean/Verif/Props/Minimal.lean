import Verif.Props.Contraction
/-! # Property theorem C79 (contraction_hierarchy.cpp, the shortcuts that are added) -/
namespace RK.Props
open Spec WitnessSearch

/-- The arcs of the remaining graph that do not touch `v`. -/
def arcsAround (g : ChGraph) (v : Nat) : ArcRel := fun a x y w => remainingArcs g a x y w ∧ x ≠ v ∧ y ≠ v

/-- C79. If the pop limit is at least twice the number of nodes, then in every state of the construction the
contraction of a node `v` adds (or makes lighter) only arcs that are needed: each one stands for a path `x, v, y`,
and every path from `x` to `y` around `v` is longer than it. All other arcs were there before. -/
theorem C79_only_needed_shortcuts (n maxPop : Nat) (hn : n ≤ 2 ^ 30) (hpop : 2 * n ≤ maxPop)
    (s : ChGraph × WitnessSearch) (hs : ContractionRun n maxPop s) (v : Nat) (hv : v < n) (hl : LightAt s.1 v) :
    ∃ s', contractNode s v = some s' ∧
      ∀ a x y w, remainingArcs s'.1 a x y w → (∃ b, remainingArcs s.1 b x y w) ∨
        ((∃ b c w1 w2, remainingArcs s.1 b x v w1 ∧ remainingArcs s.1 c v y w2 ∧ w = w1 + w2) ∧
          ∀ p l, Walk (arcsAround s.1 v) x p y l → w < l) := by
  obtain ⟨A, hg, hw, hW, hmp⟩ := hs.inv hn
  obtain ⟨g', w', A', e', hg', hw', _, _, hC, hmin⟩ := contractNode_spec (M := lightWeight) hg hw hv hW (by
      rintro x i (hi | hi)
      · obtain ⟨a, ha⟩ := (hg.arcs x v i.weight).2 ⟨i, hi, rfl⟩
        exact hl a _ _ _ ha (Or.inr rfl)
      · obtain ⟨a, ha⟩ := (hg.arcs v x i.weight).2 ⟨i, hi, rfl⟩
        exact hl a _ _ _ ha (Or.inl rfl)) (by decide)
  refine ⟨_, e', ?_⟩
  intro a x y w h
  obtain ⟨i, hi, rfl⟩ := (hg'.arcs x y w).1 ⟨a, h⟩
  rcases hmin (by omega) x y i hi with h | ⟨i1, i2, h1, h2, rfl, hlong⟩
  · exact Or.inl ((hg.arcs x y i.weight).2 ⟨i, h, rfl⟩)
  · obtain ⟨b, hb⟩ := (hg.arcs x v i1.weight).2 ⟨i1, h1, rfl⟩
    obtain ⟨c, hc⟩ := (hg.arcs v y i2.weight).2 ⟨i2, h2, rfl⟩
    refine Or.inr ⟨⟨b, c, _, _, hb, hc, rfl⟩, ?_⟩
    intro p l hp
    refine hlong l ((walk_iff (R := arcsAround s.1 v) (Q := arcR A v) ?_ x y l).1 ⟨p, hp⟩)
    intro x y w
    constructor
    · rintro ⟨a, ha, hx, hy⟩
      obtain ⟨i, hi, hiw⟩ := (hg.arcs x y w).1 ⟨a, ha⟩
      exact ⟨i, hi, hiw, hx, hy⟩
    · rintro ⟨i, hi, hiw, hx, hy⟩
      obtain ⟨a, ha⟩ := (hg.arcs x y w).2 ⟨i, hi, hiw⟩
      exact ⟨a, ha, hx, hy⟩

/-- A graph in which the path `0, 1, 2` is as long as the path `0, 3, 4, 5, 6, 2`. -/
def detour : Option ChGraph := ChGraph.new 7 [0, 0, 1, 3, 4, 5, 6] [1, 3, 2, 4, 5, 6, 2] [2, 1, 3, 1, 1, 1, 1]

/-- With a limit of 14 the detour is found and no shortcut is added. -/
example : (detour.bind fun g => contractNode (g, WitnessSearch.new 7 14) 1).map (·.1.out) =
    some [[⟨3, 1, 1, invalidId⟩], [], [], [⟨4, 1, 1, invalidId⟩], [⟨5, 1, 1, invalidId⟩], [⟨6, 1, 1, invalidId⟩],
      [⟨2, 1, 1, invalidId⟩]] := by decide +kernel

/-- A limit is needed: with limit 0 the search ends too early and an unneeded shortcut is added. -/
theorem C79_early_end_adds_shortcuts : (detour.bind fun g => contractNode (g, WitnessSearch.new 7 0) 1).map (·.1.out) =
    some [[⟨3, 1, 1, invalidId⟩, ⟨2, 5, 2, 1⟩], [], [], [⟨4, 1, 1, invalidId⟩], [⟨5, 1, 1, invalidId⟩],
      [⟨6, 1, 1, invalidId⟩], [⟨2, 1, 1, invalidId⟩]] := by decide +kernel

/-- The sample is a state of the construction. -/
example : ∃ g, detour = some g ∧ ContractionRun 7 14 (g, WitnessSearch.new 7 14) ∧ LightAt g 1 := by
  have h : ∃ g, detour = some g ∧ (g.out.all fun l => l.all fun a => decide (a.weight ≤ lightWeight)) = true :=
    ⟨_, rfl, by decide⟩
  obtain ⟨g, hg, ho⟩ := h
  refine ⟨g, hg, .start (tail := [0, 0, 1, 3, 4, 5, 6]) (head := [1, 3, 2, 4, 5, 6, 2])
    (weight := [2, 1, 3, 1, 1, 1, 1]) rfl rfl (by decide) (by decide) (by decide) ?_ ?_ hg, ?_⟩
  · rintro a x y w ⟨h1, h2, _⟩ rfl
    have ha : a < 7 := rd_some_lt (v := [0, 0, 1, 3, 4, 5, 6]) h1
    have hdec : ∀ a < 7, ([0, 0, 1, 3, 4, 5, 6] : List Nat)[a]? ≠ ([1, 3, 2, 4, 5, 6, 2] : List Nat)[a]? := by decide
    exact hdec a ha (h1.trans h2.symm)
  · intro i j t t' h h' hij h1 h2 h3 h4
    have hj : j < 7 := rd_some_lt (v := [0, 0, 1, 3, 4, 5, 6]) h2
    have hdec : ∀ j < 7, ∀ i < j,
        ([0, 0, 1, 3, 4, 5, 6] : List Nat)[i]?.getD 0 < ([0, 0, 1, 3, 4, 5, 6] : List Nat)[j]?.getD 0 ∨
        ([0, 0, 1, 3, 4, 5, 6] : List Nat)[i]?.getD 0 = ([0, 0, 1, 3, 4, 5, 6] : List Nat)[j]?.getD 0 ∧
        ([1, 3, 2, 4, 5, 6, 2] : List Nat)[i]?.getD 0 < ([1, 3, 2, 4, 5, 6, 2] : List Nat)[j]?.getD 0 := by decide
    have := hdec j hj i hij
    rw [h1, h2, h3, h4] at this
    exact this
  · rintro a x y w ⟨l, arc, h1, h2, rfl, rfl⟩ _
    rw [List.all_eq_true] at ho
    have := ho l (List.mem_of_getElem? h1)
    rw [List.all_eq_true] at this
    exact of_decide_eq_true (this arc (List.mem_of_getElem? h2))

end RK.Props
