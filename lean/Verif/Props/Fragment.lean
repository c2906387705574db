import Verif.Proof.Fragment
/-! # Property theorems C43, C44 (nested_dissection.cpp: fragments and separators) -/
namespace RK.Props
open Spec

/-- The input arcs that are no loops, as pairs. -/
def inputArcs (tail head : List Nat) : List (Nat × Nat) := (tail.zip head).filter fun p => p.1 != p.2

/-- C44. `make_graph_fragment` returns a valid fragment (`back_arc` is an involution that maps each arc
to one with swapped ends, `first_out` indexes `tail`) whose arcs are exactly the input arcs that are no
loops, in both directions, sorted by tail and then by head; node `i` has the global id `i`. -/
theorem C44_make_graph_fragment (n : Nat) (tail head : List Nat) (hl : tail.length = head.length)
    (ht : ∀ x ∈ tail, x < n) (hh : ∀ x ∈ head, x < n) (hm : 2 * (inputArcs tail head).length < 2 ^ 32) :
    ∃ f, Nd.makeGraphFragment n tail head = some f ∧ FragmentOk f ∧ f.globalNodeId = List.range n ∧
      (localArcs f).Perm (inputArcs tail head ++ (inputArcs tail head).map Prod.swap) ∧
      (localArcs f).Pairwise (fun p q => p.1 < q.1 ∨ (p.1 = q.1 ∧ p.2 ≤ q.2)) :=
  makeGraphFragment_spec hl ht hh hm

example : Nd.makeGraphFragment 3 [0, 1, 2] [1, 1, 0] =
    some ⟨[0, 1, 2], [0, 2, 3, 4], [0, 0, 1, 2], [1, 2, 0, 0], [2, 3, 0, 1]⟩ := by decide

/-- C44. Consequence: the fragment has no loops and an arc from `x` to `y` exactly if some input arc
connects the two different nodes `x` and `y`, in either direction. -/
theorem C44_adjacency (n : Nat) (tail head : List Nat) (hl : tail.length = head.length)
    (ht : ∀ x ∈ tail, x < n) (hh : ∀ x ∈ head, x < n) (hm : 2 * (inputArcs tail head).length < 2 ^ 32)
    (f : GraphFragment) (hf : Nd.makeGraphFragment n tail head = some f) (x y : Nat) :
    Adj f x y ↔ x ≠ y ∧ ∃ a : Nat, (tail[a]? = some x ∧ head[a]? = some y) ∨
      (tail[a]? = some y ∧ head[a]? = some x) := by
  obtain ⟨f', e, _, _, hp, _⟩ := C44_make_graph_fragment n tail head hl ht hh hm
  rw [hf] at e; cases e
  have key : Adj f x y ↔ (x, y) ∈ localArcs f := by
    unfold Adj FragArc localArcs
    rw [List.mem_iff_getElem?]
    simp only [List.getElem?_zip_eq_some]
  rw [key, hp.mem_iff, List.mem_append]
  have mem : ∀ u w, (u, w) ∈ inputArcs tail head ↔ u ≠ w ∧ ∃ a : Nat, tail[a]? = some u ∧ head[a]? = some w := by
    intro u w
    unfold inputArcs
    rw [List.mem_filter, List.mem_iff_getElem?]
    simp only [List.getElem?_zip_eq_some, bne_iff_ne, ne_eq]
    exact and_comm
  have sw : (x, y) ∈ (inputArcs tail head).map Prod.swap ↔ (y, x) ∈ inputArcs tail head := by
    rw [List.mem_map]
    constructor
    · rintro ⟨⟨u, w⟩, h, e⟩
      simp only [Prod.swap, Prod.mk.injEq] at e
      obtain ⟨rfl, rfl⟩ := e
      exact h
    · intro h
      exact ⟨(y, x), h, rfl⟩
  rw [sw, mem, mem]
  constructor
  · rintro (⟨h1, a, h2⟩ | ⟨h1, a, h2⟩)
    · exact ⟨h1, a, Or.inl h2⟩
    · exact ⟨fun h => h1 h.symm, a, Or.inr h2⟩
  · rintro ⟨h1, a, h2 | h2⟩
    · exact Or.inl ⟨h1, a, h2⟩
    · exact Or.inr ⟨fun h => h1 h.symm, a, h2⟩

/-- C44. With 2^31 or more arcs that are no loops the array size `2*non_loop_arc_count` overflows and
the arrays are written out of bounds. -/
theorem C44_too_many_arcs_undefined (n : Nat) (tail head : List Nat) (hl : tail.length = head.length)
    (hs : head.length < 2 ^ 32) (hm : 2 ^ 31 ≤ (inputArcs tail head).length) :
    Nd.makeGraphFragment n tail head = none := by
  have hu : u32 = 4294967296 := rfl
  generalize hM : (inputArcs tail head).length = m at hm
  have hml : m < 2 ^ 32 := by
    have := List.length_filter_le (fun p : Nat × Nat => p.1 != p.2) (tail.zip head)
    simp only [List.length_zip] at this
    unfold inputArcs at hM
    omega
  have hsize : mul32 2 m < m := by
    unfold mul32
    rw [hu]
    omega
  generalize hS : mul32 2 m = size at hsize
  have hnone : forRange 0 head.length
      (0, List.replicate size 0, List.replicate size 0, List.replicate size 0)
      (Nd.fillArc tail head m) = none := by
    cases e : forRange 0 head.length
      (0, List.replicate size 0, List.replicate size 0, List.replicate size 0)
      (Nd.fillArc tail head m) with
    | none => rfl
    | some r =>
      exfalso
      have := forRange_inv' (fun i (s : Nat × List Nat × List Nat × List Nat) =>
        s.1 = (((tail.zip head).take i).filter fun p => p.1 != p.2).length ∧ s.2.1.length = size ∧ s.1 ≤ size)
        (Nat.zero_le _) ⟨by simp, by simp, by simp⟩ e
        (by
          rintro i ⟨j, t, h, b⟩ s' _ hi ⟨h1, h2, h3⟩ hstep
          simp only at h1 h2 h3
          obtain ⟨x, hx⟩ := rd_isSome (v := tail) (i := i) (by omega)
          obtain ⟨y, hy⟩ := rd_isSome (v := head) (i := i) hi
          rw [take_zip_succ hx hy, List.filter_append]
          unfold Nd.fillArc at hstep
          simp only [hx, hy, Option.bind_eq_bind, Option.bind_some] at hstep
          by_cases hxy : x = y
          · rw [if_neg (by simpa using hxy)] at hstep
            cases hstep
            exact ⟨by simp [hxy, h1], h2, h3⟩
          · rw [if_pos hxy] at hstep
            obtain ⟨t1, w1, hstep⟩ := Option.bind_eq_some_iff.1 hstep
            obtain ⟨t2, w2, hstep⟩ := Option.bind_eq_some_iff.1 hstep
            obtain ⟨t3, w3, hstep⟩ := Option.bind_eq_some_iff.1 hstep
            obtain ⟨t4, w4, hstep⟩ := Option.bind_eq_some_iff.1 hstep
            obtain ⟨t5, w5, hstep⟩ := Option.bind_eq_some_iff.1 hstep
            obtain ⟨t6, w6, hstep⟩ := Option.bind_eq_some_iff.1 hstep
            cases hstep
            have l1 := (wr_eq_some.1 w1).1
            have l2 := wr_length w1
            have l3 := wr_length w2
            refine ⟨by simp [hxy, h1], by simp only; omega, by simp only; omega⟩)
      rw [List.take_of_length_le (by simp; omega)] at this
      obtain ⟨h1, _, h3⟩ := this
      unfold inputArcs at hM
      omega
  unfold Nd.makeGraphFragment
  have hc : Nd.countNonLoops tail head = some m := by
    rw [countNonLoops_spec hl]
    exact congrArg some hM
  simp only [hc, hS, hnone, Option.bind_eq_bind, Option.bind_some, Option.bind_none]

/-! ### C43 -/

/-- C43. After removing the nodes marked by `derive_separator_from_cut` no arc connects the two sides,
all marked nodes lie on one side of the cut, and this is a largest side. -/
theorem C43_separator (f : GraphFragment) (hf : FragmentOk f) (cut : List Bool)
    (hc : cut.length = f.globalNodeId.length) :
    ∃ sep, Nd.deriveSeparatorFromCut f cut = some sep ∧ sep.length = f.globalNodeId.length ∧
      (∀ a x y : Nat, FragArc f a x y → cut[x]? ≠ cut[y]? → sep[x]? = some true ∨ sep[y]? = some true) ∧
      ∃ side, cut.count (!side) ≤ cut.count side ∧
        ∀ x : Nat, sep[x]? = some true → cut[x]? = some side ∧ ∃ y, Adj f y x ∧ cut[y]? = some (!side) := by
  obtain ⟨sep, small, e, h1, h2, h3⟩ := deriveSeparator_spec hf hc
  refine ⟨sep, e, h1, ?_, !small, by simpa using h2, ?_⟩
  · rintro a x y ⟨hx, hy⟩ hne
    have hb := hf.back_len
    obtain ⟨b, hb⟩ := rd_isSome (v := f.backArc) (i := a) (by have := rd_some_lt (v := f.tail) hx; omega)
    obtain ⟨_, hy', hx'⟩ := hf.back a b x y hb ⟨hx, hy⟩
    have hxl : x < cut.length := hc ▸ hf.tail_lt x (List.mem_of_getElem? hx)
    have hyl : y < cut.length := hc ▸ hf.head_lt y (List.mem_of_getElem? hy)
    obtain ⟨cx, hcx⟩ := rd_isSome hxl
    obtain ⟨cy, hcy⟩ := rd_isSome hyl
    have hne : cx ≠ cy := by
      intro h
      apply hne
      subst h
      exact hcx.trans hcy.symm
    by_cases hs : cx = small
    · right
      have : cy = !small := (by decide : ∀ a b c : Bool, a ≠ b → a = c → b = !c) _ _ _ hne hs
      subst hs; subst this
      exact (h3 y).2 ⟨a, x, hx, hy, hcx, hcy⟩
    · left
      have h1 : cy = small := (by decide : ∀ a b c : Bool, a ≠ b → a ≠ c → b = c) _ _ _ hne hs
      have h2 : cx = !small := (by decide : ∀ a c : Bool, a ≠ c → a = !c) _ _ hs
      subst h1; subst h2
      exact (h3 x).2 ⟨b, y, hy', hx', hcy, hcx⟩
  · intro x hx
    obtain ⟨a, y, q1, q2, q3, q4⟩ := (h3 x).1 hx
    exact ⟨q4, y, ⟨a, q1, q2⟩, by rw [Bool.not_not]; exact q3⟩

/-- C43. On a connected fragment a cut with nodes on both sides yields a non-empty separator. -/
theorem C43_separator_not_empty (f : GraphFragment) (hf : FragmentOk f) (hcon : ConnectedFragment f)
    (cut sep : List Bool) (hc : cut.length = f.globalNodeId.length) (h1 : true ∈ cut) (h2 : false ∈ cut)
    (hs : Nd.deriveSeparatorFromCut f cut = some sep) : true ∈ sep := by
  obtain ⟨sep', e, _, h3, _⟩ := C43_separator f hf cut hc
  rw [hs] at e; cases e
  obtain ⟨x, hx, ex⟩ := List.getElem_of_mem h1
  obtain ⟨y, hy, ey⟩ := List.getElem_of_mem h2
  have hp := hcon x y (by omega) (by omega)
  have ex' : cut[x]? = some true := by rw [List.getElem?_eq_getElem hx, ex]
  have ey' : cut[y]? ≠ some true := by rw [List.getElem?_eq_getElem hy, ey]; simp
  clear ey hy
  induction hp with
  | refl => exact absurd ex' ey'
  | @tail u w hu huw ih =>
    by_cases hcu : cut[u]? = some true
    · obtain ⟨a, ha⟩ := huw
      rcases h3 a u w ha (by rw [hcu]; exact fun h => ey' h.symm) with h | h
      · exact List.mem_of_getElem? h
      · exact List.mem_of_getElem? h
    · exact ih hcu

/-- The path 0 – 1 – 2. -/
def pathFragment : GraphFragment :=
  ⟨[0, 1, 2], [0, 1, 3, 4], [0, 1, 1, 2], [1, 0, 2, 1], [1, 0, 3, 2]⟩

example : Nd.makeGraphFragment 3 [0, 1] [1, 2] = some pathFragment := by decide
example : Nd.deriveSeparatorFromCut pathFragment [true, false, false] = some [false, true, false] := by decide

end RK.Props
