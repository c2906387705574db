import Verif.Proof.ArcReduction
import Verif.Spec.ArcReduction
/-! # Property theorems C20 (contraction_hierarchy.cpp, arc reduction) -/
namespace RK.Props
open Spec

/-- C20. The result is strictly sorted by (tail, head) and free of loops. It has an arc from `x` to
`y ≠ x` iff the input has one. Each of its arcs carries the data of the first lightest parallel input arc,
whose position is recovered from the fourth vector. -/
theorem C20_reduced_arcs (n : Nat) (tail head weight id : List Nat)
    (h1 : head.length = tail.length) (h2 : weight.length = tail.length) (h3 : id.length = tail.length)
    (ht : ∀ x ∈ tail, x < n) (hh : ∀ x ∈ head, x < n) :
    ∃ r, ArcCols.sortAndReduce n ⟨tail, head, weight, id⟩ = some r ∧
      r.head.length = r.tail.length ∧ r.weight.length = r.tail.length ∧ r.id.length = r.tail.length ∧
      StrictlySorted r.tail r.head ∧
      (∀ i x y w, listArcs r.tail r.head r.weight i x y w →
        x ≠ y ∧ ∃ a, r.id[i]? = id[a]? ∧ IsFirstLightest (listArcs tail head weight) x y a w) ∧
      (∀ a x y w, listArcs tail head weight a x y w → x ≠ y →
        ∃ i w', listArcs r.tail r.head r.weight i x y w') := by
  obtain ⟨r, m, src, e, hr⟩ := ArcCols.sortAndReduce_spec (nodeCount := n) (n := tail.length)
    (a := ⟨tail, head, weight, id⟩) ⟨rfl, h1, h2, h3⟩ ht hh
  obtain ⟨o1, o2, o3, o4⟩ := hr.ok
  have hrow : ∀ j t h w, listArcs r.tail r.head r.weight j t h w →
      j < m ∧ (r.row j).t = t ∧ (r.row j).h = h ∧ (r.row j).w = w := by
    rintro j t h w ⟨a1, a2, a3⟩
    exact ⟨by have := rd_some_lt (v := r.tail) a1; omega, fn_of_rd a1, fn_of_rd a2, fn_of_rd a3⟩
  have hrow' : ∀ j, j < m → listArcs r.tail r.head r.weight j (r.row j).t (r.row j).h (r.row j).w :=
    fun j hj => ⟨rd_fn (by omega), rd_fn (by omega), rd_fn (by omega)⟩
  have hin : ∀ j t h w, listArcs tail head weight j t h w → j < tail.length ∧
      (ArcCols.row ⟨tail, head, weight, id⟩ j).t = t ∧
      (ArcCols.row ⟨tail, head, weight, id⟩ j).h = h ∧
      (ArcCols.row ⟨tail, head, weight, id⟩ j).w = w := by
    rintro j t h w ⟨a1, a2, a3⟩
    exact ⟨rd_some_lt (v := tail) a1, fn_of_rd a1, fn_of_rd a2, fn_of_rd a3⟩
  refine ⟨r, e, by omega, by omega, by omega, ?_, ?_, ?_⟩
  · intro i j t t' h h' hij a1 a2 a3 a4
    have := hr.mono i j hij (by have := rd_some_lt (v := r.tail) a2; omega)
    unfold ArcCols.KeyLt ArcCols.row at this
    simp only [fn_of_rd (v := r.tail) a1, fn_of_rd (v := r.tail) a2, fn_of_rd (v := r.head) a3,
      fn_of_rd (v := r.head) a4] at this
    exact this
  · intro i x y w hA
    obtain ⟨hi, b1, b2, b3⟩ := hrow _ _ _ _ hA
    obtain ⟨g1, g2, g3, g4⟩ := hr.get i hi
    refine ⟨by rw [b1, b2] at g3; exact g3, src i, ?_, ?_⟩
    · have := congrArg ArcCols.Row.i g2
      unfold ArcCols.row at this
      simp only at this
      change rd r.id i = rd id (src i)
      rw [rd_fn (by omega), rd_fn (v := id) (by omega), this]
    · rw [g2] at b1 b2 b3
      refine ⟨⟨?_, ?_, ?_⟩, ?_⟩
      · rw [← b1]; exact rd_fn g1
      · rw [← b2]; exact rd_fn (by omega)
      · rw [← b3]; exact rd_fn (by omega)
      · intro b w' hB
        obtain ⟨c0, c1, c2, c3⟩ := hin _ _ _ _ hB
        have := g4 b c0 ⟨c1.trans b1.symm, c2.trans b2.symm⟩
        rw [b3, c3] at this
        exact this
  · intro a x y w hA hxy
    obtain ⟨c0, c1, c2, c3⟩ := hin _ _ _ _ hA
    obtain ⟨j, hj, hk⟩ := hr.all a c0 (by rw [c1, c2]; exact hxy)
    refine ⟨j, (r.row j).w, ?_⟩
    have := hrow' j hj
    rw [hk.1, hk.2, c1, c2] at this
    exact this

example : ArcCols.sortAndReduce 3 ⟨[2, 0, 1, 0, 0], [1, 2, 1, 2, 1], [4, 9, 1, 7, 5], [0, 1, 2, 3, 4]⟩ =
    some ⟨[0, 0, 2], [1, 2, 1], [5, 7, 4], [4, 3, 0]⟩ := by decide

/-- C20. Removing loops and multi-arcs changes no distance. -/
theorem C20_distances_preserved (n : Nat) (tail head weight id : List Nat)
    (h1 : head.length = tail.length) (h2 : weight.length = tail.length) (h3 : id.length = tail.length)
    (ht : ∀ x ∈ tail, x < n) (hh : ∀ x ∈ head, x < n) :
    ∃ r, ArcCols.sortAndReduce n ⟨tail, head, weight, id⟩ = some r ∧
      ∀ s t d, IsDist (listArcs r.tail r.head r.weight) s t d ↔
        IsDist (listArcs tail head weight) s t d := by
  obtain ⟨r, e, _, _, _, _, g1, g2⟩ := C20_reduced_arcs n tail head weight id h1 h2 h3 ht hh
  refine ⟨r, e, ?_⟩
  have down : ∀ s p t l, Walk (listArcs r.tail r.head r.weight) s p t l →
      ∃ p', Walk (listArcs tail head weight) s p' t l := by
    intro s p t l h
    induction h with
    | nil s => exact ⟨_, .nil s⟩
    | cons ha _ ih =>
      obtain ⟨p', hp⟩ := ih
      obtain ⟨_, a, _, hA, _⟩ := g1 _ _ _ _ ha
      exact ⟨_, .cons hA hp⟩
  have up : ∀ s p t l, Walk (listArcs tail head weight) s p t l →
      ∃ p' l', Walk (listArcs r.tail r.head r.weight) s p' t l' ∧ l' ≤ l := by
    intro s p t l h
    induction h with
    | nil s => exact ⟨_, _, .nil s, Nat.le_refl _⟩
    | @cons a x y t w l p ha _ ih =>
      obtain ⟨p', l', hp, hl⟩ := ih
      by_cases hxy : x = y
      · subst hxy; exact ⟨p', l', hp, by omega⟩
      · obtain ⟨i, w', hi⟩ := g2 _ _ _ _ ha hxy
        obtain ⟨_, a', _, _, hmin⟩ := g1 _ _ _ _ hi
        have := hmin _ _ ha
        exact ⟨_, _, .cons hi hp, by omega⟩
  intro s t d
  constructor
  · rintro ⟨⟨p, hp⟩, hm⟩
    refine ⟨down _ _ _ _ hp, ?_⟩
    intro p' l hp'
    obtain ⟨p2, l2, hp2, hl2⟩ := up _ _ _ _ hp'
    exact Nat.le_trans (hm _ _ hp2) hl2
  · rintro ⟨⟨p, hp⟩, hm⟩
    obtain ⟨p2, l2, hp2, hl2⟩ := up _ _ _ _ hp
    obtain ⟨p3, hp3⟩ := down _ _ _ _ hp2
    have := hm _ _ hp3
    have : l2 = d := by omega
    subst this
    refine ⟨⟨p2, hp2⟩, ?_⟩
    intro p' l hp'
    obtain ⟨p4, hp4⟩ := down _ _ _ _ hp'
    exact hm _ _ hp4

end RK.Props
