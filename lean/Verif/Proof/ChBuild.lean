import Verif.Model.ChBuild
import Verif.Proof.Contract
import Verif.Proof.Hier
/-! Helper lemmas about the contraction loops. -/
namespace RK
open WitnessSearch ChGraph

/-- Some row of `r` has these entries. -/
def ChRows.Row (r : ChRows) (x y w m : Nat) : Prop :=
  ∃ j, rd r.tail j = some x ∧ rd r.head j = some y ∧ rd r.weight j = some w ∧ rd r.mid j = some m

/-- The four vectors have the same length and the pairs of tail and head are distinct. -/
structure ChRows.Ok (r : ChRows) : Prop where
  head : r.head.length = r.tail.length
  weight : r.weight.length = r.tail.length
  mid : r.mid.length = r.tail.length
  inj : ∀ i j x y, rd r.tail i = some x → rd r.head i = some y → rd r.tail j = some x →
    rd r.head j = some y → i = j

theorem ChRows.Ok.row_unique {r : ChRows} (h : r.Ok) {x y w m w' m' : Nat} (h1 : r.Row x y w m)
    (h2 : r.Row x y w' m') : w = w' ∧ m = m' := by
  obtain ⟨i, a1, a2, a3, a4⟩ := h1
  obtain ⟨j, b1, b2, b3, b4⟩ := h2
  have := h.inj i j x y a1 a2 b1 b2
  subst this
  rw [a3] at b3; rw [a4] at b4
  cases b3; cases b4
  exact ⟨rfl, rfl⟩

theorem rd_snoc {α : Type} {l : List α} {a : α} {j : Nat} {x : α} :
    rd (l ++ [a]) j = some x ↔ rd l j = some x ∨ (j = l.length ∧ x = a) := by
  unfold rd
  by_cases h : j < l.length
  · rw [List.getElem?_append_left h]
    constructor
    · exact Or.inl
    · rintro (h' | ⟨h', _⟩)
      · exact h'
      · omega
  · rw [List.getElem?_append_right (by omega)]
    constructor
    · intro h'
      have hj : j - l.length < 1 := by
        by_contra hc
        rw [List.getElem?_eq_none (by simp; omega)] at h'
        cases h'
      have hj0 : j - l.length = 0 := by omega
      rw [hj0] at h'
      simp only [List.getElem?_cons_zero, Option.some.injEq] at h'
      exact Or.inr ⟨by omega, h'.symm⟩
    · rintro (h' | ⟨rfl, rfl⟩)
      · rw [List.getElem?_eq_none (by omega)] at h'; cases h'
      · simp

theorem ChRows.push_spec {r r' : ChRows} {v : Nat} {a : ChArc} (hr : r.Ok)
    (hnew : ∀ w m, ¬ r.Row v a.node w m) (h : ChRows.push v r a = some r') :
    r'.Ok ∧ ∀ x y w m, r'.Row x y w m ↔ r.Row x y w m ∨ (x = v ∧ y = a.node ∧ w = a.weight ∧ m = a.mid) := by
  unfold ChRows.push at h
  simp only [Option.bind_eq_bind, Option.bind_eq_some_iff] at h
  obtain ⟨_, _, h⟩ := h
  cases h
  have h1 := hr.head
  have h2 := hr.weight
  have h3 := hr.mid
  have hno : ∀ j, rd r.tail j = some v → rd r.head j = some a.node → False := by
    intro j e1 e2
    have hj := rd_some_lt e1
    obtain ⟨w, hw⟩ := rd_isSome (v := r.weight) (i := j) (by omega)
    obtain ⟨m, hm⟩ := rd_isSome (v := r.mid) (i := j) (by omega)
    exact hnew w m ⟨j, e1, e2, hw, hm⟩
  refine ⟨⟨by simp [h1], by simp [h2], by simp [h3], ?_⟩, ?_⟩
  · intro i j x y
    simp only [rd_snoc]
    rintro (e1 | ⟨e1, f1⟩) (e2 | ⟨e2, f2⟩) (e3 | ⟨e3, f3⟩) (e4 | ⟨e4, f4⟩)
    · exact hr.inj i j x y e1 e2 e3 e4
    · have := rd_some_lt e3; omega
    · have := rd_some_lt e4; omega
    · subst f3 f4; exact (hno i e1 e2).elim
    · have := rd_some_lt e1; omega
    · have := rd_some_lt e1; omega
    · have := rd_some_lt e1; omega
    · have := rd_some_lt e1; omega
    · have := rd_some_lt e2; omega
    · have := rd_some_lt e2; omega
    · have := rd_some_lt e2; omega
    · have := rd_some_lt e2; omega
    · subst f1 f2; exact (hno j e3 e4).elim
    · have := rd_some_lt e3; omega
    · have := rd_some_lt e4; omega
    · omega
  · intro x y w m
    unfold ChRows.Row
    simp only [rd_snoc]
    constructor
    · rintro ⟨j, e1 | ⟨e1, f1⟩, e2 | ⟨e2, f2⟩, e3 | ⟨e3, f3⟩, e4 | ⟨e4, f4⟩⟩
      · exact Or.inl ⟨j, e1, e2, e3, e4⟩
      all_goals first
        | exact Or.inr ⟨f1, f2, f3, f4⟩
        | (exfalso
           first
             | (have := rd_some_lt e1; omega)
             | (have := rd_some_lt e2; omega)
             | (have := rd_some_lt e3; omega)
             | (have := rd_some_lt e4; omega))
    · rintro (⟨j, e1, e2, e3, e4⟩ | ⟨rfl, rfl, rfl, rfl⟩)
      · exact ⟨j, Or.inl e1, Or.inl e2, Or.inl e3, Or.inl e4⟩
      · exact ⟨r.tail.length, Or.inr ⟨rfl, rfl⟩, Or.inr ⟨by omega, rfl⟩, Or.inr ⟨by omega, rfl⟩,
          Or.inr ⟨by omega, rfl⟩⟩

theorem ChRows.emit_spec (v : Nat) : ∀ (l : List ChArc) (r r' : ChRows), r.Ok →
    (l.map (·.node)).Nodup → (∀ a ∈ l, ∀ w m, ¬ r.Row v a.node w m) → forEach l r (ChRows.push v) = some r' →
    r'.Ok ∧ ∀ x y w m, r'.Row x y w m ↔
      r.Row x y w m ∨ (x = v ∧ ∃ a ∈ l, y = a.node ∧ w = a.weight ∧ m = a.mid)
  | [], r, r', hr, _, _, h => by
    simp only [forEach] at h
    cases h
    exact ⟨hr, by simp⟩
  | a :: l, r, r', hr, hnd, hnew, h => by
    simp only [forEach, Option.bind_eq_bind, Option.bind_eq_some_iff] at h
    obtain ⟨r1, e1, h⟩ := h
    rw [List.map_cons, List.nodup_cons] at hnd
    obtain ⟨h1, h2⟩ := ChRows.push_spec hr (hnew a (by simp)) e1
    obtain ⟨h3, h4⟩ := ChRows.emit_spec v l r1 r' h1 hnd.2 (by
      intro b hb w m hrow
      rcases (h2 _ _ _ _).1 hrow with hrow | ⟨_, he, _⟩
      · exact hnew b (by simp [hb]) w m hrow
      · exact hnd.1 (List.mem_map.2 ⟨b, hb, he⟩)) h
    refine ⟨h3, ?_⟩
    intro x y w m
    rw [h4, h2]
    constructor
    · rintro ((h | ⟨rfl, rfl, rfl, rfl⟩) | ⟨rfl, b, hb, rfl, rfl, rfl⟩)
      · exact Or.inl h
      · exact Or.inr ⟨rfl, a, by simp, rfl, rfl, rfl⟩
      · exact Or.inr ⟨rfl, b, by simp [hb], rfl, rfl, rfl⟩
    · rintro (h | ⟨rfl, b, hb, rfl, rfl, rfl⟩)
      · exact Or.inl (Or.inl h)
      · rw [List.mem_cons] at hb
        rcases hb with rfl | hb
        · exact Or.inl (Or.inr ⟨rfl, rfl, rfl, rfl⟩)
        · exact Or.inr ⟨rfl, b, hb, rfl, rfl, rfl⟩

theorem ChRows.emit_total (v : Nat) : ∀ (l : List ChArc) (r : ChRows), r.head.length + l.length ≤ invalidId →
    ∃ r', forEach l r (ChRows.push v) = some r' ∧ r'.head.length = r.head.length + l.length
  | [], r, _ => ⟨r, rfl, rfl⟩
  | a :: l, r, h => by
    simp only [List.length_cons] at h
    have hc : decide (r.head.length ≠ invalidId) = true := by simp; omega
    obtain ⟨r', e, hl⟩ := ChRows.emit_total v l
      ⟨r.tail ++ [v], r.head ++ [a.node], r.weight ++ [a.weight], r.mid ++ [a.mid]⟩ (by simp; omega)
    refine ⟨r', ?_, by simp at hl ⊢; omega⟩
    simp only [forEach, ChRows.push, hc, check_true, Option.bind_eq_bind, Option.bind_some]
    exact e

/-! ### Invariant of the contraction loops -/

abbrev RowR := Nat → Nat → Nat → Nat → Prop

/-- All arcs found so far: upward, downward and those of the remaining graph. -/
def AllArcs (A : ArcMap) (F B : RowR) : RowR :=
  fun x y w m => F x y w m ∨ B y x w m ∨ ∃ i, A x y = some i ∧ i.weight = w ∧ i.mid = m

/-- `C` are the nodes contracted so far, in order; `A0` are the arcs of the input graph, `A` those of the
remaining graph, `F` and `B` the arcs of the hierarchy so far. -/
structure BInv (n : Nat) (A0 : ArcMap) (C : List Nat) (A : ArcMap) (F B : RowR) : Prop where
  nodup : C.Nodup
  lt : ∀ x ∈ C, x < n
  core : ∀ x y i, A x y = some i → x ∉ C ∧ y ∉ C
  fwd : ∀ x y w m, F x y w m → x ∈ C ∧ y < n ∧ C.idxOf x < C.idxOf y
  bwd : ∀ x y w m, B x y w m → x ∈ C ∧ y < n ∧ C.idxOf x < C.idxOf y
  real : ∀ x y w m, AllArcs A F B x y w m →
    (m = invalidId ∧ ∃ i, A0 x y = some i ∧ i.weight = w) ∨
    (m ∈ C ∧ ∃ w1 w2 m1 m2, B m x w1 m1 ∧ F m y w2 m2 ∧ w = w1 + w2)
  dom : ∀ x y i, A0 x y = some i → ∃ w m, AllArcs A F B x y w m ∧ w ≤ i.weight
  tri : ∀ z x y w1 w2 m1 m2, B z x w1 m1 → F z y w2 m2 → x ≠ y → ∃ l, l ≤ w1 + w2 ∧
    RWalk (fun p q w => (∃ m, AllArcs A F B p q w m) ∧ C.idxOf z < C.idxOf p ∧ C.idxOf z < C.idxOf q) x y l

theorem idxOf_snoc {C : List Nat} {v : Nat} (hv : v ∉ C) (x : Nat) :
    (C ++ [v]).idxOf x = if x ∈ C then C.idxOf x else if x = v then C.length else C.length + 1 := by
  by_cases hx : x ∈ C
  · rw [if_pos hx, List.idxOf_append_of_mem hx]
  · rw [if_neg hx, List.idxOf_append_of_notMem hx]
    by_cases hxv : x = v
    · subst hxv; simp
    · rw [if_neg hxv, List.idxOf_cons_ne _ (fun h => hxv h.symm)]; simp

theorem idxOf_snoc_lt {C : List Nat} {v x y : Nat} (hv : v ∉ C) (hx : x ∈ C) (h : C.idxOf x < C.idxOf y) :
    (C ++ [v]).idxOf x < (C ++ [v]).idxOf y := by
  rw [idxOf_snoc hv, idxOf_snoc hv, if_pos hx]
  have := List.idxOf_lt_length_of_mem hx
  split
  · exact h
  · split <;> omega

theorem BInv.init {n : Nat} {A0 : ArcMap} (hmid : ∀ x y i, A0 x y = some i → i.mid = invalidId) :
    BInv n A0 [] A0 (fun _ _ _ _ => False) (fun _ _ _ _ => False) := by
  refine ⟨by simp, by simp, by simp, by simp, by simp, ?_, ?_, by simp⟩
  · rintro x y w m (h | h | ⟨i, hi, rfl, rfl⟩)
    · exact h.elim
    · exact h.elim
    · exact Or.inl ⟨hmid _ _ _ hi, i, hi, rfl⟩
  · intro x y i hi
    exact ⟨i.weight, i.mid, Or.inr (Or.inr ⟨i, hi, rfl, rfl⟩), Nat.le_refl _⟩

/-- One contraction. -/
theorem BInv.step {n : Nat} {A0 A A' : ArcMap} {C : List Nat} {F B F' B' : RowR} {v : Nat}
    (h : BInv n A0 C A F B) (hv : v < n) (hvC : v ∉ C) (hdom : ∀ x y i, A x y = some i → x < n ∧ y < n ∧ x ≠ y)
    (hc : Contracted A v A')
    (hF : ∀ x y w m, F' x y w m ↔ F x y w m ∨ (x = v ∧ ∃ i, A v y = some i ∧ w = i.weight ∧ m = i.mid))
    (hB : ∀ x y w m, B' x y w m ↔ B x y w m ∨ (x = v ∧ ∃ i, A y v = some i ∧ w = i.weight ∧ m = i.mid)) :
    BInv n A0 (C ++ [v]) A' F' B' := by
  have hcore' : ∀ x y i, A' x y = some i → x ∉ C ++ [v] ∧ y ∉ C ++ [v] := by
    intro x y i hi
    obtain ⟨h1, h2⟩ := hc.avoid x y i hi
    have : x ∉ C ∧ y ∉ C := by
      rcases hc.origin x y i hi with hi | ⟨i1, i2, e1, e2, _⟩
      · exact h.core x y i hi
      · exact ⟨(h.core _ _ _ e1).1, (h.core _ _ _ e2).2⟩
    simp [h1, h2, this.1, this.2]
  -- old arcs are still there, maybe lighter
  have hall : ∀ x y w m, AllArcs A F B x y w m → ∃ w' m', AllArcs A' F' B' x y w' m' ∧ w' ≤ w := by
    rintro x y w m (hf | hb | ⟨i, hi, rfl, rfl⟩)
    · exact ⟨w, m, Or.inl ((hF _ _ _ _).2 (Or.inl hf)), Nat.le_refl _⟩
    · exact ⟨w, m, Or.inr (Or.inl ((hB _ _ _ _).2 (Or.inl hb))), Nat.le_refl _⟩
    · by_cases hx : x = v
      · subst hx
        exact ⟨i.weight, i.mid, Or.inl ((hF _ _ _ _).2 (Or.inr ⟨rfl, i, hi, rfl, rfl⟩)), Nat.le_refl _⟩
      · by_cases hy : y = v
        · subst hy
          exact ⟨i.weight, i.mid, Or.inr (Or.inl ((hB _ _ _ _).2 (Or.inr ⟨rfl, i, hi, rfl, rfl⟩))), Nat.le_refl _⟩
        · obtain ⟨i', hi', hle⟩ := hc.dom x y i hi hx hy
          exact ⟨i'.weight, i'.mid, Or.inr (Or.inr ⟨i', hi', rfl, rfl⟩), hle⟩
  have hidxv : (C ++ [v]).idxOf v = C.length := by rw [idxOf_snoc hvC, if_neg hvC, if_pos rfl]
  have hout : ∀ y, y ∉ C → y ≠ v → (C ++ [v]).idxOf y = C.length + 1 := by
    intro y h1 h2
    rw [idxOf_snoc hvC, if_neg h1, if_neg h2]
  refine ⟨?_, ?_, hcore', ?_, ?_, ?_, ?_, ?_⟩
  · rw [List.nodup_append]
    exact ⟨h.nodup, by simp, by
      intro a ha b hb hab
      rw [List.mem_singleton] at hb
      subst hb; subst hab; exact hvC ha⟩
  · intro x hx
    rw [List.mem_append] at hx
    rcases hx with hx | hx
    · exact h.lt x hx
    · simp at hx; omega
  · intro x y w m hf
    rcases (hF _ _ _ _).1 hf with hf | ⟨rfl, i, hi, _, _⟩
    · obtain ⟨h1, h2, h3⟩ := h.fwd _ _ _ _ hf
      exact ⟨by simp [h1], h2, idxOf_snoc_lt hvC h1 h3⟩
    · obtain ⟨_, h2, h3⟩ := hdom _ _ _ hi
      refine ⟨by simp, h2, ?_⟩
      rw [hidxv, hout y (h.core _ _ _ hi).2 (fun hc => h3 hc.symm)]; omega
  · intro x y w m hf
    rcases (hB _ _ _ _).1 hf with hf | ⟨rfl, i, hi, _, _⟩
    · obtain ⟨h1, h2, h3⟩ := h.bwd _ _ _ _ hf
      exact ⟨by simp [h1], h2, idxOf_snoc_lt hvC h1 h3⟩
    · obtain ⟨h1, _, h3⟩ := hdom _ _ _ hi
      refine ⟨by simp, h1, ?_⟩
      rw [hidxv, hout y (h.core _ _ _ hi).1 h3]; omega
  · intro x y w m ha
    -- either an old arc or a new shortcut over `v`
    have hold : AllArcs A F B x y w m → (m = invalidId ∧ ∃ i, A0 x y = some i ∧ i.weight = w) ∨
        (m ∈ C ++ [v] ∧ ∃ w1 w2 m1 m2, B' m x w1 m1 ∧ F' m y w2 m2 ∧ w = w1 + w2) := by
      intro ha
      rcases h.real x y w m ha with h1 | ⟨h1, w1, w2, m1, m2, h2, h3, h4⟩
      · exact Or.inl h1
      · exact Or.inr ⟨by simp [h1], w1, w2, m1, m2, (hB _ _ _ _).2 (Or.inl h2), (hF _ _ _ _).2 (Or.inl h3), h4⟩
    rcases ha with hf | hb | ⟨i, hi, rfl, rfl⟩
    · rcases (hF _ _ _ _).1 hf with hf | ⟨rfl, i, hi, rfl, rfl⟩
      · exact hold (Or.inl hf)
      · exact hold (Or.inr (Or.inr ⟨i, hi, rfl, rfl⟩))
    · rcases (hB _ _ _ _).1 hb with hf | ⟨rfl, i, hi, rfl, rfl⟩
      · exact hold (Or.inr (Or.inl hf))
      · exact hold (Or.inr (Or.inr ⟨i, hi, rfl, rfl⟩))
    · rcases hc.origin x y i hi with hi | ⟨i1, i2, e1, e2, rfl⟩
      · exact hold (Or.inr (Or.inr ⟨i, hi, rfl, rfl⟩))
      · exact Or.inr ⟨by simp [shortcut], i1.weight, i2.weight, i1.mid, i2.mid,
          (hB _ _ _ _).2 (Or.inr ⟨rfl, i1, e1, rfl, rfl⟩), (hF _ _ _ _).2 (Or.inr ⟨rfl, i2, e2, rfl, rfl⟩), rfl⟩
  · intro x y i hi
    obtain ⟨w, m, ha, hle⟩ := h.dom x y i hi
    obtain ⟨w', m', ha', hle'⟩ := hall _ _ _ _ ha
    exact ⟨w', m', ha', by omega⟩
  · intro z x y w1 w2 m1 m2 hb hf hxy
    rcases (hB _ _ _ _).1 hb with hb | ⟨rfl, i1, e1, rfl, rfl⟩
    · have hz := (h.bwd _ _ _ _ hb).1
      have hf' : F z y w2 m2 := by
        rcases (hF _ _ _ _).1 hf with hf | ⟨rfl, _⟩
        · exact hf
        · exact absurd hz hvC
      obtain ⟨l, hl, hw⟩ := h.tri z x y w1 w2 m1 m2 hb hf' hxy
      obtain ⟨l', hl', hw'⟩ := hw.dom (R' := fun p q w => (∃ m, AllArcs A' F' B' p q w m) ∧
        (C ++ [v]).idxOf z < (C ++ [v]).idxOf p ∧ (C ++ [v]).idxOf z < (C ++ [v]).idxOf q) (by
          rintro p q w ⟨⟨m, ha⟩, h1, h2⟩
          obtain ⟨w', m', ha', hle⟩ := hall _ _ _ _ ha
          exact ⟨w', hle, ⟨m', ha'⟩, idxOf_snoc_lt hvC hz h1, idxOf_snoc_lt hvC hz h2⟩)
      exact ⟨l', by omega, hw'⟩
    · have : ∃ i2, A z y = some i2 ∧ w2 = i2.weight := by
        rcases (hF _ _ _ _).1 hf with hf | ⟨_, i2, e2, e3, _⟩
        · exact absurd (h.fwd _ _ _ _ hf).1 hvC
        · exact ⟨i2, e2, e3⟩
      obtain ⟨i2, e2, rfl⟩ := this
      obtain ⟨l, hl, hw⟩ := hc.bridge x y i1 i2 e1 e2 hxy
      refine ⟨l, hl, hw.mono ?_⟩
      rintro p q w ⟨i, hi, rfl⟩
      obtain ⟨h1, h2⟩ := hcore' _ _ _ hi
      simp only [List.mem_append, List.mem_singleton, not_or] at h1 h2
      refine ⟨⟨i.mid, Or.inr (Or.inr ⟨i, hi, rfl, rfl⟩)⟩, ?_, ?_⟩
      · rw [hidxv, hout p h1.1 h1.2]; omega
      · rw [hidxv, hout q h2.1 h2.2]; omega

/-! ### States of the contraction loops -/

/-- All arc weights are at most `M`. -/
def ChRows.Light (M : Nat) (r : ChRows) : Prop := ∀ w ∈ r.weight, w ≤ M

/-- State of the contraction loop after the nodes `C` were contracted. -/
def BState (n M : Nat) (A0 : ArcMap) (C : List Nat) (s : BuildState) : Prop :=
  ∃ A, GRep s.graph n A ∧ Idle s.wit n ∧ (∀ x y i, A x y = some i → i.weight ≤ 2 * M) ∧
    s.fwd.Ok ∧ s.bwd.Ok ∧ BInv n A0 C A s.fwd.Row s.bwd.Row

theorem emit_weight (v : Nat) : ∀ (l : List ChArc) (r r' : ChRows), forEach l r (ChRows.push v) = some r' →
    r'.weight = r.weight ++ l.map (·.weight)
  | [], r, r', h => by simp only [forEach] at h; cases h; simp
  | a :: l, r, r', h => by
    simp only [forEach, Option.bind_eq_bind, Option.bind_eq_some_iff] at h
    obtain ⟨r1, e1, h⟩ := h
    unfold ChRows.push at e1
    simp only [Option.bind_eq_bind, Option.bind_eq_some_iff] at e1
    obtain ⟨_, _, e1⟩ := e1
    cases e1
    rw [emit_weight v l _ r' h]; simp

theorem contractStep_split {s s' : BuildState} {v : Nat} (h : contractStep s v = some s') :
    ∃ ov iv, rd s.graph.out v = some ov ∧ rd s.graph.inn v = some iv ∧
      forEach ov s.fwd (ChRows.push v) = some s'.fwd ∧ forEach iv s.bwd (ChRows.push v) = some s'.bwd ∧
      contractNode (s.graph, s.wit) v = some (s'.graph, s'.wit) := by
  unfold contractStep at h
  simp only [Option.bind_eq_bind, Option.bind_eq_some_iff] at h
  obtain ⟨ov, h1, f, h2, iv, h3, b, h4, r, h5, h⟩ := h
  cases h
  exact ⟨ov, iv, h1, h3, h2, h4, h5⟩

/-- Arcs found later do not hide heavy arcs found earlier. -/
theorem contractStep_light {s s' : BuildState} {v M : Nat} (h : contractStep s v = some s')
    (hf : s'.fwd.Light M) (hb : s'.bwd.Light M) : s.fwd.Light M ∧ s.bwd.Light M := by
  obtain ⟨ov, iv, _, _, h1, h2, _⟩ := contractStep_split h
  have e1 := emit_weight v _ _ _ h1
  have e2 := emit_weight v _ _ _ h2
  exact ⟨fun w hw => hf w (by rw [e1]; simp [hw]), fun w hw => hb w (by rw [e2]; simp [hw])⟩

theorem BState.emitted {n M : Nat} {A0 : ArcMap} {C : List Nat} {s : BuildState} {v : Nat}
    (hvC : v ∉ C) {A : ArcMap} (hI : BInv n A0 C A s.fwd.Row s.bwd.Row) :
    (∀ y w m, ¬ s.fwd.Row v y w m) ∧ (∀ y w m, ¬ s.bwd.Row v y w m) :=
  ⟨fun y w m h => hvC (hI.fwd _ _ _ _ h).1, fun y w m h => hvC (hI.bwd _ _ _ _ h).1⟩

theorem contractStep_spec {n M : Nat} {A0 : ArcMap} {C : List Nat} {s s' : BuildState} {v : Nat}
    (hs : BState n M A0 C s) (hv : v < n) (hvC : v ∉ C) (h8 : 8 * M < u32)
    (h : contractStep s v = some s') (hf : s'.fwd.Light M) (hb : s'.bwd.Light M) :
    BState n M A0 (C ++ [v]) s' := by
  obtain ⟨A, hg, hw, hW, okf, okb, hI⟩ := hs
  obtain ⟨ov, iv, eo, ei, h1, h2, h3⟩ := contractStep_split h
  obtain ⟨ov', eo', ho⟩ := hg.out v hv
  obtain ⟨iv', ei', hi⟩ := hg.inn v hv
  rw [eo] at eo'; cases eo'
  rw [ei] at ei'; cases ei'
  have e1 := emit_weight v _ _ _ h1
  have e2 := emit_weight v _ _ _ h2
  have hM : ∀ x i, A x v = some i ∨ A v x = some i → i.weight ≤ M := by
    rintro x i (hx | hx)
    · exact hb i.weight (by
        rw [e2, List.mem_append]
        exact Or.inr (List.mem_map.2 ⟨mkArc x i, hi.mem_mk.2 hx, rfl⟩))
    · exact hf i.weight (by
        rw [e1, List.mem_append]
        exact Or.inr (List.mem_map.2 ⟨mkArc x i, ho.mem_mk.2 hx, rfl⟩))
  obtain ⟨g', w', A', e3, hg', hw', _, _, hc, _⟩ := contractNode_spec hg hw hv hW hM h8
  rw [h3] at e3
  obtain ⟨rfl, rfl⟩ := Prod.mk.inj (Option.some.inj e3)
  obtain ⟨n1, n2⟩ := BState.emitted (M := M) hvC hI
  obtain ⟨okf', rf⟩ := ChRows.emit_spec v ov s.fwd s'.fwd okf ho.nodup (fun a _ w m => n1 _ w m) h1
  obtain ⟨okb', rb⟩ := ChRows.emit_spec v iv s.bwd s'.bwd okb hi.nodup (fun a _ w m => n2 _ w m) h2
  refine ⟨A', hg', hw', ?_, okf', okb', hI.step hv hvC hg.dom hc ?_ ?_⟩
  · intro x y i hxy
    rcases hc.origin x y i hxy with hxy | ⟨i1, i2, a1, a2, rfl⟩
    · exact hW _ _ _ hxy
    · have := hM _ _ (Or.inl a1)
      have := hM _ _ (Or.inr a2)
      simp only [shortcut]; omega
  · intro x y w m
    rw [rf]
    refine or_congr Iff.rfl (and_congr Iff.rfl ?_)
    constructor
    · rintro ⟨a, ha, rfl, rfl, rfl⟩
      exact ⟨a.info, (ho.mem a).1 ha, rfl, rfl⟩
    · rintro ⟨i, hi, rfl, rfl⟩
      exact ⟨mkArc y i, ho.mem_mk.2 hi, rfl, rfl, rfl⟩
  · intro x y w m
    rw [rb]
    refine or_congr Iff.rfl (and_congr Iff.rfl ?_)
    constructor
    · rintro ⟨a, ha, rfl, rfl, rfl⟩
      exact ⟨a.info, (hi.mem a).1 ha, rfl, rfl⟩
    · rintro ⟨i, hi', rfl, rfl⟩
      exact ⟨mkArc y i, hi.mem_mk.2 hi', rfl, rfl, rfl⟩

theorem contractStep_total {n M : Nat} {A0 : ArcMap} {C : List Nat} {s : BuildState} {v : Nat}
    (hs : BState n M A0 C s) (hv : v < n) (h8 : 8 * M < u32)
    (hf : s.fwd.head.length + n ≤ invalidId) (hb : s.bwd.head.length + n ≤ invalidId)
    (hM : ∀ ov iv, rd s.graph.out v = some ov → rd s.graph.inn v = some iv → ∀ a ∈ iv ++ ov, a.weight ≤ M) :
    ∃ s', contractStep s v = some s' ∧ s'.fwd.head.length ≤ s.fwd.head.length + n ∧
      s'.bwd.head.length ≤ s.bwd.head.length + n := by
  obtain ⟨A, hg, hw, hW, okf, okb, hI⟩ := hs
  obtain ⟨ov, eo, ho⟩ := hg.out v hv
  obtain ⟨iv, ei, hi⟩ := hg.inn v hv
  have hlo := ho.length_le (n := n) (fun y i h => (hg.dom _ _ _ h).2.1)
  have hli := hi.length_le (n := n) (fun y i h => (hg.dom _ _ _ h).1)
  have hM' : ∀ x i, A x v = some i ∨ A v x = some i → i.weight ≤ M := by
    rintro x i (hx | hx)
    · exact hM ov iv eo ei (mkArc x i) (List.mem_append.2 (Or.inl (hi.mem_mk.2 hx)))
    · exact hM ov iv eo ei (mkArc x i) (List.mem_append.2 (Or.inr (ho.mem_mk.2 hx)))
  obtain ⟨g', w', A', e3, _⟩ := contractNode_spec hg hw hv hW hM' h8
  obtain ⟨f', ef, lf⟩ := ChRows.emit_total v ov s.fwd (by omega)
  obtain ⟨b', eb, lb⟩ := ChRows.emit_total v iv s.bwd (by omega)
  refine ⟨⟨g', w', f', b'⟩, ?_, by simp only; omega, by simp only; omega⟩
  unfold contractStep
  simp only [eo, ei, ef, eb, e3, Option.bind_eq_bind, Option.bind_some]

end RK
