import Verif.Proof.Scc
/-! # Property theorems C19 (strongly_connected_component.cpp) -/
namespace RK.Props
open Spec

/-- C19, all components. For every directed graph with fewer than 2^32 nodes the function terminates
without undefined behaviour. Two nodes get the same component id iff they are mutually reachable, the
ids are exactly 0, ..., component_count-1, and arcs never lead to a larger component id. -/
theorem C19_strongly_connected_components {n : Nat} {firstOut head : List Nat} (hg : IsCSR n firstOut head)
    (hn : n < 2 ^ 32) :
    ∃ (compOf : List Nat) (count : Nat), Scc.compute firstOut head = some (compOf, count) ∧ compOf.length = n ∧
      (∀ (x y cx cy : Nat), compOf[x]? = some cx → compOf[y]? = some cy →
        (cx = cy ↔ Mutual firstOut head x y)) ∧
      (∀ c : Nat, c < count ↔ ∃ x : Nat, compOf[x]? = some c) ∧
      (∀ (x y cx cy : Nat), Edge firstOut head x y → compOf[x]? = some cx → compOf[y]? = some cy → cy ≤ cx) := by
  obtain ⟨compOf, count, e, hl, h1, h2, h3, h4⟩ := Scc.compute_spec hg (by simpa using hn)
  refine ⟨compOf, count, e, hl, ?_, ?_, ?_⟩
  · intro x y cx cy hx hy
    rw [← fn_of_rd hx, ← fn_of_rd hy]
    exact h1 x (by rw [← hl]; exact rd_some_lt hx) y (by rw [← hl]; exact rd_some_lt hy)
  · intro c
    constructor
    · intro hc
      obtain ⟨x, hx, hxc⟩ := h3 c hc
      exact ⟨x, by rw [← hxc]; exact rd_fn (by omega)⟩
    · rintro ⟨x, hx⟩
      rw [← fn_of_rd hx]
      exact h2 x (by rw [← hl]; exact rd_some_lt hx)
  · intro x y cx cy hxy hx hy
    rw [← fn_of_rd hx, ← fn_of_rd hy]
    exact h4 x y hxy

/-- C19, the largest component. In a nonempty graph the marked nodes are exactly the nodes mutually
reachable with some node `r`, and no set of pairwise mutually reachable nodes has more elements. -/
theorem C19_largest_component {n : Nat} {firstOut head : List Nat} (hg : IsCSR n firstOut head)
    (hn : n < 2 ^ 32) :
    ∃ res : List Bool, Scc.computeLargest firstOut head = some res ∧ res.length = n ∧
      (0 < n → ∃ r < n, (∀ x < n, (res[x]? = some true ↔ Mutual firstOut head r x)) ∧
        ∀ S : List Nat, S.Nodup → (∀ x ∈ S, x < n) → (∀ x ∈ S, ∀ y ∈ S, Mutual firstOut head x y) →
          S.length ≤ res.count true) := by
  obtain ⟨res, e, hl, h⟩ := Scc.computeLargest_spec hg (by simpa using hn)
  refine ⟨res, e, hl, fun h0 => ?_⟩
  obtain ⟨r, hr, h1, f, h2, h3⟩ := h h0
  refine ⟨r, hr, h1, ?_⟩
  intro S hnd hS hm
  have hcount : res.count true = ((List.range n).filter fun x => decide (f x = f r)).length := by
    have : res = (List.range n).map fun x => decide (f x = f r) := by
      apply list_ext_rd (by simpa using hl)
      intro x hx
      have hxn : x < n := by omega
      have e2 : rd ((List.range n).map fun x => decide (f x = f r)) x = some (decide (f x = f r)) := by
        simp [rd, hxn]
      rw [e2]
      obtain ⟨b, hb⟩ := rd_isSome hx
      rw [hb]
      have := h1 x hxn
      rw [hb, ← h2 r hr x hxn] at this
      cases b
      · have hne : ¬ f x = f r := fun e => by simpa using this.2 e.symm
        simp [hne]
      · simp [(this.1 rfl).symm]
    rw [this, List.count, List.countP_map, List.countP_eq_length_filter]
    congr 1
    apply List.filter_congr
    intro x _
    simp
  rw [hcount]
  cases S with
  | nil => simp
  | cons y S =>
    refine Nat.le_trans ?_ (h3 y (hS y (by simp)))
    refine (hnd.subperm ?_).length_le
    intro x hx
    simp only [List.mem_filter, List.mem_range, decide_eq_true_eq]
    exact ⟨hS x hx, (h2 x (hS x hx) y (hS y (by simp))).2 (hm x hx y (by simp))⟩

/-- Non-vacuity: 0 ⇄ 1 ⇄ 2, 2 → 3 ⇄ 4, 5 isolated with a loop. -/
example : IsCSR 6 [0, 1, 3, 5, 6, 7, 8] [1, 0, 2, 1, 3, 4, 3, 5] := by
  refine ⟨rfl, ?_, rfl, rfl, ?_⟩
  · intro x b e h1 h2
    match x with
    | 0 | 1 | 2 | 3 | 4 | 5 => simp at h1 h2; omega
    | x + 6 => simp at h1 h2
  · intro a y h
    have := List.mem_of_getElem? h
    simp at this; omega

example : Scc.compute [0, 1, 3, 5, 6, 7, 8] [1, 0, 2, 1, 3, 4, 3, 5] = some ([1, 1, 1, 0, 0, 2], 3) := by decide
example : Scc.computeLargest [0, 1, 3, 5, 6, 7, 8] [1, 0, 2, 1, 3, 4, 3, 5] =
    some [true, true, true, false, false, false] := by decide

end RK.Props
