import Verif.Model.ArcReduction
import Verif.Proof.GraphUtil
import Verif.Proof.Fn
/-! Helper lemmas about the arc reduction (C20). -/
namespace RK.ArcCols
open Spec

structure Row where
  t : Nat
  h : Nat
  w : Nat
  i : Nat

def row (a : ArcCols) (j : Nat) : Row := ⟨fn a.tail j, fn a.head j, fn a.weight j, fn a.id j⟩

structure Ok (a : ArcCols) (n : Nat) : Prop where
  tail : a.tail.length = n
  head : a.head.length = n
  weight : a.weight.length = n
  id : a.id.length = n

theorem copyRow_spec {a : ArcCols} {n dst src : Nat} (h : Ok a n) (hd : dst < n) (hs : src < n) :
    ∃ a', copyRow a dst src = some a' ∧ Ok a' n ∧
      ∀ j, row a' j = if j = dst then row a src else row a j := by
  obtain ⟨h1, h2, h3, h4⟩ := h
  refine ⟨⟨a.tail.set dst (fn a.tail src), a.head.set dst (fn a.head src),
    a.weight.set dst (fn a.weight src), a.id.set dst (fn a.id src)⟩, ?_, ?_, ?_⟩
  · unfold copyRow
    simp [rd_fn (v := a.tail) (x := src) (by omega), rd_fn (v := a.head) (x := src) (by omega),
      rd_fn (v := a.weight) (x := src) (by omega), rd_fn (v := a.id) (x := src) (by omega),
      wr_lt (v := a.tail) (i := dst) (by omega), wr_lt (v := a.head) (i := dst) (by omega),
      wr_lt (v := a.weight) (i := dst) (by omega), wr_lt (v := a.id) (i := dst) (by omega)]
  · constructor <;> simp [*]
  · intro j
    unfold row
    simp only
    rw [fn_set (by omega), fn_set (by omega), fn_set (by omega), fn_set (by omega)]
    split <;> rfl

theorem mergeRow_spec {a : ArcCols} {n out i : Nat} (h : Ok a n) (hd : out - 1 < n) (hs : i < n) :
    ∃ a', mergeRow a out i = some a' ∧ Ok a' n ∧
      ∀ j, row a' j = if j = out - 1 ∧ (row a i).w < (row a (out - 1)).w then
        ⟨(row a j).t, (row a j).h, (row a i).w, (row a i).i⟩ else row a j := by
  obtain ⟨h1, h2, h3, h4⟩ := h
  by_cases hc : fn a.weight i < fn a.weight (out - 1)
  · refine ⟨⟨a.tail, a.head, a.weight.set (out - 1) (fn a.weight i), a.id.set (out - 1) (fn a.id i)⟩,
      ?_, ?_, ?_⟩
    · unfold mergeRow
      simp [rd_fn (v := a.weight) (x := i) (by omega),
        rd_fn (v := a.weight) (x := out - 1) (by omega), rd_fn (v := a.id) (x := i) (by omega), hc,
        wr_lt (v := a.weight) (i := out - 1) (by omega), wr_lt (v := a.id) (i := out - 1) (by omega)]
    · constructor <;> simp [*]
    · intro j
      unfold row
      simp only
      rw [fn_set (by omega), fn_set (by omega)]
      by_cases hj : j = out - 1
      · rw [if_pos hj, if_pos hj, if_pos ⟨hj, hc⟩]
      · rw [if_neg hj, if_neg hj, if_neg (fun h => hj h.1)]
  · refine ⟨a, ?_, ⟨h1, h2, h3, h4⟩, ?_⟩
    · unfold mergeRow
      simp [rd_fn (v := a.weight) (x := i) (by omega),
        rd_fn (v := a.weight) (x := out - 1) (by omega), hc]
    · intro j
      rw [if_neg (fun h => hc h.2)]

/-- State of the loop removal after `i` rows of `a0`. -/
structure LInv (a0 : ArcCols) (n i : Nat) (s : Nat × ArcCols) (pos : Nat → Nat) : Prop where
  ok : Ok s.2 n
  le : s.1 ≤ i
  rest : ∀ j, i ≤ j → row s.2 j = row a0 j
  get : ∀ j, j < s.1 → pos j < i ∧ row s.2 j = row a0 (pos j) ∧ (row s.2 j).t ≠ (row s.2 j).h
  mono : ∀ j k, j < k → k < s.1 → pos j < pos k
  all : ∀ p, p < i → (row a0 p).t ≠ (row a0 p).h → ∃ j, j < s.1 ∧ pos j = p

theorem removeLoops_spec {a0 : ArcCols} {n : Nat} (h : Ok a0 n) :
    ∃ r pos, removeLoops a0 n = some r ∧ LInv a0 n n r pos := by
  have hinit : LInv a0 n 0 (0, a0) (fun j => j) := by
    constructor
    · exact h
    · exact Nat.le_refl _
    · intros; rfl
    · intro j hj; simp at hj
    · intro j k _ hk; simp at hk
    · intro p hp; omega
  unfold removeLoops
  by_cases hn : n = 0
  · subst hn
    rw [if_neg (by simp)]
    exact ⟨_, _, rfl, hinit⟩
  rw [if_pos hn]
  obtain ⟨r, e, pos, hr⟩ := forRange_inv (f := loopStep) (lo := 0) (hi := n) (s := (0, a0))
    (fun i s => ∃ pos, LInv a0 n i s pos) (by omega) ⟨_, hinit⟩ (by
      rintro i ⟨out, a⟩ _ hi ⟨pos, hI⟩
      obtain ⟨o1, o2, o3, o4⟩ := hI.ok
      have hri := hI.rest i (Nat.le_refl _)
      have hle := hI.le
      simp only at o1 o2 o3 o4 hri hle
      unfold loopStep
      simp only [rd_fn (v := a.tail) (x := i) (by omega), rd_fn (v := a.head) (x := i) (by omega),
        Option.bind_eq_bind, Option.bind_some]
      by_cases hc : fn a.tail i ≠ fn a.head i
      · obtain ⟨a', e, hok, hrow⟩ := copyRow_spec hI.ok (dst := out) (src := i) (by omega) hi
        simp only at e
        rw [if_pos hc, e]
        refine ⟨_, rfl, fun j => if j = out then i else pos j, ⟨hok, by simp; omega, ?_, ?_, ?_, ?_⟩⟩
        · intro j hj
          simp only
          rw [hrow, if_neg (by omega)]
          exact hI.rest j (by omega)
        · intro j hj
          simp only at hj ⊢
          by_cases hjo : j = out
          · rw [if_pos hjo, hrow, if_pos hjo]
            exact ⟨by omega, hri, hc⟩
          · rw [if_neg hjo, hrow, if_neg hjo]
            obtain ⟨h1, h2⟩ := hI.get j (show j < out by omega)
            exact ⟨by omega, h2⟩
        · intro j k hjk hk
          simp only at hk ⊢
          rw [if_neg (show j ≠ out by omega)]
          by_cases hko : k = out
          · rw [if_pos hko]
            exact (hI.get j (show j < out by omega)).1
          · rw [if_neg hko]
            exact hI.mono j k hjk (show k < out by omega)
        · intro p hp hpn
          simp only
          by_cases hpi : p = i
          · exact ⟨out, by omega, by rw [if_pos rfl, hpi]⟩
          · obtain ⟨j, hj, ej⟩ := hI.all p (by omega) hpn
            simp only at hj
            exact ⟨j, by omega, by rw [if_neg (by omega)]; exact ej⟩
      · rw [if_neg hc]
        refine ⟨_, rfl, pos, ⟨hI.ok, by simp; omega, fun j hj => hI.rest j (by omega), ?_, hI.mono, ?_⟩⟩
        · intro j hj
          obtain ⟨h1, h2⟩ := hI.get j hj
          exact ⟨by omega, h2⟩
        · intro p hp hpn
          by_cases hpi : p = i
          · rw [hpi, ← hri] at hpn
            exact absurd hpn hc
          · exact hI.all p (by omega) hpn)
  exact ⟨r, pos, e, hr⟩

def KeyEq (x y : Row) : Prop := x.t = y.t ∧ x.h = y.h
def KeyLt (x y : Row) : Prop := x.t < y.t ∨ (x.t = y.t ∧ x.h < y.h)
def KeyLe (x y : Row) : Prop := KeyEq x y ∨ KeyLt x y

theorem KeyEq.symm {x y : Row} (h : KeyEq x y) : KeyEq y x := ⟨h.1.symm, h.2.symm⟩
theorem KeyEq.trans {x y z : Row} (h : KeyEq x y) (g : KeyEq y z) : KeyEq x z :=
  ⟨h.1.trans g.1, h.2.trans g.2⟩
theorem KeyLe.trans_lt {x y z : Row} (h : KeyLe x y) (g : KeyLt y z) : KeyLt x z := by
  unfold KeyLe KeyLt KeyEq at *; omega
theorem KeyLt.not_eq {x y : Row} (h : KeyLt x y) (g : KeyEq x y) : False := by
  unfold KeyLt KeyEq at *; omega

/-- State of the multi-arc removal after `i` rows of `a0`. -/
structure MInv (a0 : ArcCols) (n i : Nat) (s : Nat × ArcCols) (pos : Nat → Nat) : Prop where
  ok : Ok s.2 n
  le : s.1 ≤ i
  one : 1 ≤ s.1
  rest : ∀ j, i ≤ j → row s.2 j = row a0 j
  prev : KeyEq (row s.2 (i - 1)) (row a0 (i - 1))
  last : KeyEq (row s.2 (s.1 - 1)) (row a0 (i - 1))
  get : ∀ j, j < s.1 → pos j < i ∧ row s.2 j = row a0 (pos j) ∧
    ∀ q, q < i → KeyEq (row a0 q) (row a0 (pos j)) →
      (row a0 (pos j)).w < (row a0 q).w ∨ ((row a0 (pos j)).w = (row a0 q).w ∧ pos j ≤ q)
  mono : ∀ j k, j < k → k < s.1 → KeyLt (row s.2 j) (row s.2 k)
  all : ∀ p, p < i → ∃ j, j < s.1 ∧ KeyEq (row s.2 j) (row a0 p)

theorem removeMulti_spec {a0 : ArcCols} {n m : Nat} (h : Ok a0 n) (hm : m ≤ n) (hm0 : m ≠ 0)
    (hs : ∀ j k, j ≤ k → k < m → KeyLe (row a0 j) (row a0 k)) :
    ∃ r pos, removeMulti a0 m = some r ∧ MInv a0 n m r pos := by
  unfold removeMulti
  rw [if_pos hm0]
  have hinit : MInv a0 n 1 (1, a0) (fun j => j) := by
    constructor
    · exact h
    · exact Nat.le_refl _
    · exact Nat.le_refl _
    · intros; rfl
    · exact ⟨rfl, rfl⟩
    · exact ⟨rfl, rfl⟩
    · intro j hj
      simp only at hj
      have : j = 0 := by omega
      subst this
      refine ⟨by simp, rfl, ?_⟩
      intro q hq _
      have : q = 0 := by omega
      subst this
      exact Or.inr ⟨rfl, Nat.le_refl _⟩
    · intro j k _ hk
      simp only at hk
      omega
    · intro p hp
      have : p = 0 := by omega
      subst this
      exact ⟨0, by simp, rfl, rfl⟩
  obtain ⟨r, e, pos, hr⟩ := forRange_inv (f := multiStep) (lo := 1) (hi := m) (s := (1, a0))
    (fun i s => ∃ pos, MInv a0 n i s pos) (by omega) ⟨_, hinit⟩ (by
      rintro i ⟨out, a⟩ hi0 hi ⟨pos, hI⟩
      obtain ⟨o1, o2, o3, o4⟩ := hI.ok
      have hri := hI.rest i (Nat.le_refl _)
      have hle := hI.le
      have hone := hI.one
      have hprev := hI.prev
      have hlast := hI.last
      simp only at o1 o2 o3 o4 hri hle hone hprev hlast
      unfold multiStep
      simp only [rd_fn (v := a.tail) (x := i) (by omega), rd_fn (v := a.head) (x := i) (by omega),
        rd_fn (v := a.tail) (x := i - 1) (by omega), rd_fn (v := a.head) (x := i - 1) (by omega),
        Option.bind_eq_bind, Option.bind_some]
      by_cases hc : fn a.tail (i - 1) ≠ fn a.tail i ∨ fn a.head (i - 1) ≠ fn a.head i
      · obtain ⟨a', e, hok, hrow⟩ := copyRow_spec hI.ok (dst := out) (src := i) (by omega) (by omega)
        simp only at e
        rw [if_pos hc, e]
        have hne : KeyLt (row a0 (i - 1)) (row a0 i) := by
          rcases hs (i - 1) i (by omega) hi with h | h
          · exfalso
            have h2 := hprev.trans h
            rw [← hri] at h2
            rcases hc with hc | hc
            · exact hc h2.1
            · exact hc h2.2
          · exact h
        have hlt : ∀ j, j < out → KeyLt (row a j) (row a i) := by
          intro j hj
          obtain ⟨h1, h2, _⟩ := hI.get j hj
          simp only at h2
          rw [h2, hri]
          exact (hs (pos j) (i - 1) (by omega) (by omega)).trans_lt hne
        refine ⟨_, rfl, fun j => if j = out then i else pos j,
          ⟨hok, by simp; omega, by simp, ?_, ?_, ?_, ?_, ?_, ?_⟩⟩
        · intro j hj
          simp only
          rw [hrow, if_neg (by omega)]
          exact hI.rest j (by omega)
        · simp only [Nat.add_sub_cancel]
          rw [hrow]
          by_cases hio : i = out
          · rw [if_pos hio, hri]; exact ⟨rfl, rfl⟩
          · rw [if_neg hio, hri]; exact ⟨rfl, rfl⟩
        · simp only [Nat.add_sub_cancel]
          rw [hrow, if_pos rfl, hri]
          exact ⟨rfl, rfl⟩
        · intro j hj
          simp only at hj ⊢
          by_cases hjo : j = out
          · rw [if_pos hjo, hrow, if_pos hjo]
            refine ⟨by omega, hri, ?_⟩
            intro q hq hk
            by_cases hqi : q = i
            · subst hqi; exact Or.inr ⟨rfl, Nat.le_refl _⟩
            · exact absurd hk fun hk =>
                ((hs q (i - 1) (by omega) (by omega)).trans_lt hne).not_eq hk
          · rw [if_neg hjo, hrow, if_neg hjo]
            obtain ⟨h1, h2, h3⟩ := hI.get j (show j < out by omega)
            refine ⟨by omega, h2, ?_⟩
            intro q hq hk
            by_cases hqi : q = i
            · subst hqi
              exfalso
              have := hlt j (by omega)
              simp only at h2
              rw [h2, hri] at this
              exact this.not_eq hk.symm
            · exact h3 q (by omega) hk
        · intro j k hjk hk
          simp only at hk ⊢
          rw [hrow, hrow, if_neg (show j ≠ out by omega)]
          by_cases hko : k = out
          · rw [if_pos hko]
            exact hlt j (by omega)
          · rw [if_neg hko]
            exact hI.mono j k hjk (show k < out by omega)
        · intro p hp
          simp only
          by_cases hpi : p = i
          · exact ⟨out, by omega, by rw [hrow, if_pos rfl, hri, hpi]; exact ⟨rfl, rfl⟩⟩
          · obtain ⟨j, hj, ej⟩ := hI.all p (by omega)
            simp only at hj
            exact ⟨j, by omega, by rw [hrow, if_neg (by omega)]; exact ej⟩
      · rw [if_neg hc]
        have hkey : KeyEq (row a (i - 1)) (row a i) := by
          by_contra hk
          apply hc
          by_cases h1 : fn a.tail (i - 1) = fn a.tail i
          · exact Or.inr fun h2 => hk ⟨h1, h2⟩
          · exact Or.inl h1
        have hkey0 : KeyEq (row a0 (i - 1)) (row a0 i) := by
          rw [← hri]; exact hprev.symm.trans hkey
        obtain ⟨a', e, hok, hrow⟩ := mergeRow_spec hI.ok (out := out) (i := i) (by omega) (by omega)
        simp only at e hrow
        rw [e]
        have hrowkey : ∀ j, KeyEq (row a' j) (row a j) := by
          intro j
          rw [hrow]
          split <;> exact ⟨rfl, rfl⟩
        refine ⟨_, rfl, fun j => if j = out - 1 ∧ (row a i).w < (row a (out - 1)).w then i else pos j,
          ⟨hok, by simp; omega, hone, ?_, ?_, ?_, ?_, ?_, ?_⟩⟩
        · intro j hj
          simp only
          rw [hrow, if_neg (by omega)]
          exact hI.rest j (by omega)
        · simp only [Nat.add_sub_cancel]
          rw [← hri]
          exact hrowkey i
        · simp only [Nat.add_sub_cancel]
          exact (hrowkey _).trans (hlast.trans hkey0)
        · intro j hj
          simp only at hj ⊢
          obtain ⟨h1, h2, h3⟩ := hI.get j hj
          simp only at h2
          rw [hrow]
          by_cases hx : j = out - 1 ∧ (row a i).w < (row a (out - 1)).w
          · rw [if_pos hx, if_pos hx]
            obtain ⟨hxo, hxw⟩ := hx
            subst hxo
            have hko : KeyEq (row a (out - 1)) (row a0 i) := hlast.trans hkey0
            refine ⟨by omega, ?_, ?_⟩
            · rw [hko.1, hko.2, hri]
            · intro q hq hk
              by_cases hqi : q = i
              · subst hqi; exact Or.inr ⟨rfl, Nat.le_refl _⟩
              · have := h3 q (by omega) (by rw [← h2]; exact hk.trans hko.symm)
                rw [← h2] at this
                rw [hri] at hxw
                left
                omega
          · rw [if_neg hx, if_neg hx]
            refine ⟨by omega, h2, ?_⟩
            intro q hq hk
            by_cases hqi : q = i
            · subst hqi
              by_cases hjo : j = out - 1
              · have : ¬ (row a q).w < (row a (out - 1)).w := fun h => hx ⟨hjo, h⟩
                rw [hri] at this
                rw [← hjo, h2] at this
                omega
              · exfalso
                have hm := hI.mono j (out - 1) (by omega) (show out - 1 < out by omega)
                simp only at hm
                rw [h2] at hm
                exact hm.not_eq (hk.symm.trans (hlast.trans hkey0).symm)
            · exact h3 q (by omega) hk
        · intro j k hjk hk
          simp only at hk ⊢
          have h1 := hrowkey j
          have h2 := hrowkey k
          have h3 := hI.mono j k hjk hk
          unfold KeyLt at *
          rw [h1.1, h1.2, h2.1, h2.2]
          exact h3
        · intro p hp
          simp only
          by_cases hpi : p = i
          · exact ⟨out - 1, by omega, by
              rw [hpi]; exact (hrowkey _).trans (hlast.trans hkey0)⟩
          · obtain ⟨j, hj, ej⟩ := hI.all p (by omega)
            simp only at hj
            exact ⟨j, hj, (hrowkey _).trans ej⟩)
  exact ⟨r, pos, e, hr⟩

/-- The reduced arcs `r` of the arcs `a`. -/
structure Reduced (a r : ArcCols) (n m : Nat) (src : Nat → Nat) : Prop where
  ok : Ok r m
  get : ∀ j, j < m → src j < n ∧ row r j = row a (src j) ∧ (row r j).t ≠ (row r j).h ∧
    ∀ q, q < n → KeyEq (row a q) (row a (src j)) →
      (row a (src j)).w < (row a q).w ∨ ((row a (src j)).w = (row a q).w ∧ src j ≤ q)
  mono : ∀ j k, j < k → k < m → KeyLt (row r j) (row r k)
  all : ∀ p, p < n → (row a p).t ≠ (row a p).h → ∃ j, j < m ∧ KeyEq (row r j) (row a p)

theorem fn_take {v : List Nat} {m j : Nat} (h : j < m) : fn (v.take m) j = fn v j := by
  unfold fn rd
  rw [List.getElem?_take, if_pos h]

theorem truncate_ok {a : ArcCols} {n m : Nat} (h : Ok a n) (hm : m ≤ n) :
    Ok (a.truncate m) m ∧ ∀ j, j < m → row (a.truncate m) j = row a j := by
  obtain ⟨h1, h2, h3, h4⟩ := h
  constructor
  · constructor <;> simp [truncate, *]
  · intro j hj
    unfold row truncate
    simp [fn_take hj]

theorem sortAndReduce_spec {nodeCount n : Nat} {a : ArcCols} (h : Ok a n)
    (ht : ∀ x ∈ a.tail, x < nodeCount) (hh : ∀ x ∈ a.head, x < nodeCount) :
    ∃ r m src, sortAndReduce nodeCount a = some r ∧ Reduced a r n m src := by
  obtain ⟨o1, o2, o3, o4⟩ := h
  obtain ⟨p, a1, q, a2, r, r0, e1, e2, e3, e4, e5, g0, g1, g2, g3, g4⟩ :=
    lex_inverse (a := a.tail) (b := a.head) (by omega) ht hh
  have hrl : r.length = n := by have := g1.1; have := g2.2.1; omega
  have hr0l : r0.length = n := by have := g2.2.1; omega
  have hrP := isPerm_iff_perm.2 g0
  obtain ⟨hd, eh, lh, vh⟩ := applyInversePermutation_spec (v := a.head) hrP (by omega)
  obtain ⟨wt, ew, lw, vw⟩ := applyInversePermutation_spec (v := a.weight) hrP (by omega)
  obtain ⟨idv, ei, li, vi⟩ := applyInversePermutation_spec (v := a.id) hrP (by omega)
  let S : ArcCols := ⟨a2, hd, wt, idv⟩
  have hS : Ok S n := ⟨by simp [S]; omega, by simp [S]; omega, by simp [S]; omega, by simp [S]; omega⟩
  have hr0P := isPerm_iff_perm.2 g2.1
  -- row j of the sorted arcs is row `fn r0 j` of the input
  have hlt : ∀ j, j < n → fn r0 j < n := by
    intro j hj
    obtain ⟨x, hx, hx'⟩ := hr0P.rd (i := j) (by omega)
    rw [fn_of_rd hx]; omega
  have hrowS : ∀ j, j < n → row S j = row a (fn r0 j) := by
    intro j hj
    have hk := rd_fn (v := r0) (x := j) (by omega)
    have hk' := (g1.2 j (fn r0 j)).1 hk
    have := hlt j hj
    have t1 := g4 j _ hk
    have t2 := vh _ _ hk'
    have t3 := vw _ _ hk'
    have t4 := vi _ _ hk'
    unfold row
    simp only [S]
    congr 1
    · unfold fn; rw [t1]; rfl
    · unfold fn; rw [t2]; rfl
    · unfold fn; rw [t3]; rfl
    · unfold fn; rw [t4]; rfl
  have hsort : ∀ j k, j < k → k < n → KeyLt (row S j) (row S k) ∨
      (KeyEq (row S j) (row S k) ∧ fn r0 j < fn r0 k) := by
    intro j k hjk hk
    have := g2.2.2 j k (fn r0 j) (fn r0 k) _ _ _ _ hjk (rd_fn (v := r0) (by omega))
      (rd_fn (v := r0) (by omega)) (rd_fn (v := a.tail) (by have := hlt j (by omega); omega))
      (rd_fn (v := a.tail) (by have := hlt k (by omega); omega))
      (rd_fn (v := a.head) (by have := hlt j (by omega); omega))
      (rd_fn (v := a.head) (by have := hlt k (by omega); omega))
    rw [hrowS j (by omega), hrowS k hk]
    unfold KeyLt KeyEq row
    simp only
    omega
  obtain ⟨⟨m1, L⟩, pos, el, hL⟩ := removeLoops_spec hS
  have hm1 : m1 ≤ n := hL.le
  have hLsort : ∀ j k, j ≤ k → k < m1 → KeyLe (row L j) (row L k) := by
    intro j k hjk hk
    by_cases hjk' : j = k
    · subst hjk'; exact Or.inl ⟨rfl, rfl⟩
    · have e1 := (hL.get j (show j < m1 by omega)).2.1
      have e2 := (hL.get k hk).2.1
      simp only at e1 e2
      rw [e1, e2]
      rcases hsort (pos j) (pos k) (hL.mono j k (by omega) hk) (hL.get k hk).1 with h | h
      · exact Or.inr h
      · exact Or.inl h.1
  have heval : ∀ {m M}, removeMulti L m1 = some (m, M) →
      sortAndReduce nodeCount a = some (M.truncate m) := by
    intro m M hM
    unfold sortAndReduce
    have es : computeInverseSortPermutationFirstByTailThenByHeadAndApplySortToTail nodeCount a.tail
        a.head = some (r, a2) := by
      simp [computeInverseSortPermutationFirstByTailThenByHeadAndApplySortToTail,
        computeInverseSortPermutationFirstByLeftThenByRightAndApplySortToLeft, e1, e2, e3, e4, e5,
        lex_sorted (by omega : a.tail.length = a.head.length) g2 g3 g4]
    rw [es]
    have el' : removeLoops ⟨a2, hd, wt, idv⟩ hd.length = some (m1, L) := by
      rw [lh, o2]; exact el
    simp [eh, ew, ei, el', hM]
  by_cases hm0 : m1 = 0
  · subst hm0
    have hM : removeMulti L 0 = some (0, L) := by simp [removeMulti]
    refine ⟨_, 0, fun j => j, heval hM, ⟨(truncate_ok hL.ok (by omega)).1, ?_, ?_, ?_⟩⟩
    · intro j hj; omega
    · intro j k _ hk; omega
    · intro p hp hpn
      exfalso
      obtain ⟨j, hj, ej⟩ := hr0P.surj (x := p) (by omega)
      obtain ⟨k, hk, _⟩ := hL.all j (by omega) (by
        rw [hrowS j (by omega), fn_of_rd ej]; exact hpn)
      simp at hk
  · obtain ⟨⟨m, M⟩, pos2, em, hM⟩ := removeMulti_spec hL.ok hm1 hm0 hLsort
    have hmm : m ≤ m1 := hM.le
    obtain ⟨t1, t2⟩ := truncate_ok (m := m) hM.ok (show m ≤ n by omega)
    refine ⟨_, m, fun j => fn r0 (pos (pos2 j)), heval em, ⟨t1, ?_, ?_, ?_⟩⟩
    · intro j hj
      obtain ⟨h1, h2, h3⟩ := hM.get j hj
      obtain ⟨h4, h5, h6⟩ := hL.get (pos2 j) h1
      simp only at h2 h3 h5 h6
      have hrow : row (M.truncate m) j = row a (fn r0 (pos (pos2 j))) := by
        rw [t2 j hj, h2, h5, hrowS _ h4]
      refine ⟨hlt _ h4, hrow, ?_, ?_⟩
      · rw [t2 j hj, h2]; exact h6
      · intro q hq hk
        obtain ⟨b, hb, eb⟩ := hr0P.surj (x := q) (by omega)
        have hbn : b < n := by omega
        have hSb : row S b = row a q := by rw [hrowS b hbn, fn_of_rd eb]
        have hSp : row S (pos (pos2 j)) = row a (fn r0 (pos (pos2 j))) := hrowS _ h4
        rw [← hSp, ← hSb] at hk
        rw [← hSp, ← hSb]
        obtain ⟨c, hc, ec⟩ := hL.all b hbn (by
          rw [hk.1, hk.2, ← h5]; exact h6)
        have hLc := (hL.get c hc).2.1
        simp only at hLc hc
        rw [ec] at hLc
        have := h3 c hc (by rw [hLc, h5]; exact hk)
        rw [hLc, h5] at this
        rcases this with h | ⟨h, h'⟩
        · exact Or.inl h
        · refine Or.inr ⟨h, ?_⟩
          by_cases hcj : pos2 j = c
          · rw [hcj, ec, fn_of_rd eb]
          · have hlt' := hL.mono (pos2 j) c (by omega) hc
            rw [ec] at hlt'
            rcases hsort _ _ hlt' hbn with g | ⟨_, g⟩
            · exact absurd hk.symm (fun h => g.not_eq h)
            · rw [fn_of_rd eb] at g; omega
    · intro j k hjk hk
      rw [t2 j (by omega), t2 k hk]
      exact hM.mono j k hjk hk
    · intro p hp hpn
      obtain ⟨b, hb, eb⟩ := hr0P.surj (x := p) (by omega)
      have hSb : row S b = row a p := by rw [hrowS b (by omega), fn_of_rd eb]
      obtain ⟨c, hc, ec⟩ := hL.all b (by omega) (by rw [hSb]; exact hpn)
      obtain ⟨j, hj, ej⟩ := hM.all c hc
      simp only at hj ej
      refine ⟨j, hj, ?_⟩
      rw [t2 j hj]
      have hLc := (hL.get c hc).2.1
      simp only at hLc
      rw [hLc, ec, hSb] at ej
      exact ej

end RK.ArcCols
