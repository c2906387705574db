import Verif.Proof.ChLoops
import Verif.Proof.CacheOrder
import Verif.Proof.InverseVector
import Verif.Props.GraphUtil
import Verif.Props.Permutation
/-! Helper lemmas about renaming and sorting the arcs of a hierarchy. -/
namespace RK
open Spec

/-- `r` is sorted and `fo` is the index of its tails. -/
structure SortedRows (n : Nat) (fo : List Nat) (r : ChRows) : Prop where
  ok : r.Ok
  csr : IsCSR n fo r.head
  own : ∀ a x, OutArc fo x a ↔ rd r.tail a = some x
  sorted : ∀ x a b u v : Nat, OutArc fo x a → OutArc fo x b → a ≤ b →
    r.head[a]? = some u → r.head[b]? = some v → u ≤ v

theorem outArc_of_index {tail fo : List Nat} {n : Nat} (hs : tail.Pairwise (· ≤ ·)) (hn : ∀ x ∈ tail, x < n)
    (hl : fo.length = n + 1) (h : ∀ i, i ≤ n → rd fo i = some (cLt tail i)) (a x : Nat) :
    OutArc fo x a ↔ rd tail a = some x := by
  constructor
  · rintro ⟨b, e, hb, he, h1, h2⟩
    have hxn : x + 1 < fo.length := rd_some_lt (v := fo) he
    have e1 := (h x (by omega)).symm.trans hb
    have e2 := (h (x + 1) (by omega)).symm.trans he
    cases e1; cases e2
    have hal : a < tail.length := by have := cLt_le_length tail (x + 1); omega
    obtain ⟨y, hy⟩ := rd_isSome hal
    have h3 := sorted_cLt hs (k := x) hy
    have h4 := sorted_cLt hs (k := x + 1) hy
    have : y = x := by omega
    rw [hy, this]
  · intro hx
    have hxn := hn x (List.mem_of_getElem? hx)
    have h3 := sorted_cLt hs (k := x) hx
    have h4 := sorted_cLt hs (k := x + 1) hx
    exact ⟨_, _, h x (by omega), h (x + 1) (by omega), by omega, by omega⟩

theorem isCSR_of_index {tail head fo : List Nat} {n : Nat} (hn : ∀ x ∈ tail, x < n)
    (hlen : head.length = tail.length) (hh : ∀ x ∈ head, x < n)
    (hl : fo.length = n + 1) (h : ∀ i, i ≤ n → rd fo i = some (cLt tail i)) : IsCSR n fo head := by
  refine ⟨hl, ?_, ?_, ?_, ?_⟩
  · intro x b e hb he
    have hxn : x + 1 < fo.length := rd_some_lt (v := fo) he
    have e1 := (h x (by omega)).symm.trans hb
    have e2 := (h (x + 1) (by omega)).symm.trans he
    cases e1; cases e2
    exact cLt_mono tail (by omega)
  · have := h 0 (by omega)
    rw [show fo[0]? = rd fo 0 from rfl, this]
    congr 1
    unfold cLt
    rw [List.countP_eq_zero]
    intro x _; simp
  · have := h n (by omega)
    rw [show fo[n]? = rd fo n from rfl, this, cLt_all hn, hlen]
  · intro a y hy
    exact hh y (List.mem_of_getElem? hy)

theorem sortRows_spec {n : Nat} {r : ChRows} (hr : r.Ok) (ht : ∀ x ∈ r.tail, x < n) (hh : ∀ x ∈ r.head, x < n) :
    ∃ fo r', sortRows n r = some (fo, r') ∧ SortedRows n fo r' ∧ r'.head.length = r.head.length ∧
      ∀ x y w m, r'.Row x y w m ↔ r.Row x y w m := by
  have o2 := hr.head
  have o3 := hr.weight
  have o4 := hr.mid
  obtain ⟨p, a1, q, tail, r1, r0, e1, e2, e3, e4, e5, g0, g1, g2, g3, g4⟩ :=
    lex_inverse (a := r.tail) (b := r.head) (by omega) ht hh
  have hrl : r1.length = r.tail.length := by have := g1.1; have := g2.2.1; omega
  have hr0l : r0.length = r.tail.length := g2.2.1
  have hrP := isPerm_iff_perm.2 g0
  obtain ⟨head, eh, lh, vh⟩ := applyInversePermutation_spec (v := r.head) hrP (by omega)
  obtain ⟨weight, ew, lw, vw⟩ := applyInversePermutation_spec (v := r.weight) hrP (by omega)
  obtain ⟨mid, em, lm, vm⟩ := applyInversePermutation_spec (v := r.mid) hrP (by omega)
  have hr0P := isPerm_iff_perm.2 g2.1
  have hsorted := lex_sorted (by omega : r.tail.length = r.head.length) g2 g3 g4
  have hpw : tail.Pairwise (· ≤ ·) := (isSortedUsingLess_iff _).1 hsorted
  have htn : ∀ x ∈ tail, x < n := mem_of_apply ht hr0l g3 g4
  -- position `j` of the result is position `k` of the input
  have hpos : ∀ j k, rd r0 j = some k → rd tail j = rd r.tail k ∧ rd head j = rd r.head k ∧
      rd weight j = rd r.weight k ∧ rd mid j = rd r.mid k := by
    intro j k hk
    have hk' := (g1.2 j k).1 hk
    exact ⟨g4 j k hk, vh _ _ hk', vw _ _ hk', vm _ _ hk'⟩
  have hhn : ∀ x ∈ head, x < n := by
    intro x hx
    obtain ⟨j, hj⟩ := List.getElem?_of_mem hx
    obtain ⟨k, hk⟩ := rd_isSome (v := r0) (i := j) (by have := rd_some_lt (v := head) hj; omega)
    have := (hpos j k hk).2.1
    rw [show rd head j = some x from hj] at this
    exact hh x (List.mem_of_getElem? this.symm)
  obtain ⟨fo, ef, lf, vf⟩ := invertVector_spec (n := n) hpw htn
  have hrow : ∀ x y w m, ChRows.Row ⟨tail, head, weight, mid⟩ x y w m ↔ r.Row x y w m := by
    intro x y w m
    constructor
    · rintro ⟨j, h1, h2, h3, h4⟩
      obtain ⟨k, hk⟩ := rd_isSome (v := r0) (i := j) (by have := rd_some_lt (v := tail) h1; omega)
      obtain ⟨p1, p2, p3, p4⟩ := hpos j k hk
      exact ⟨k, p1.symm.trans h1, p2.symm.trans h2, p3.symm.trans h3, p4.symm.trans h4⟩
    · rintro ⟨k, h1, h2, h3, h4⟩
      obtain ⟨j, _, hk⟩ := hr0P.surj (x := k) (by have := rd_some_lt (v := r.tail) h1; omega)
      obtain ⟨p1, p2, p3, p4⟩ := hpos j k hk
      exact ⟨j, p1.trans h1, p2.trans h2, p3.trans h3, p4.trans h4⟩
  have hown := outArc_of_index hpw htn lf vf
  refine ⟨fo, ⟨tail, head, weight, mid⟩, ?_, ⟨⟨by simp only; omega, by simp only; omega, by simp only; omega, ?_⟩,
    isCSR_of_index htn (by simp only; omega) hhn lf vf, hown, ?_⟩, lh, hrow⟩
  · unfold sortRows
    have es : computeInverseSortPermutationFirstByTailThenByHeadAndApplySortToTail n r.tail
        r.head = some (r1, tail) := by
      simp [computeInverseSortPermutationFirstByTailThenByHeadAndApplySortToTail,
        computeInverseSortPermutationFirstByLeftThenByRightAndApplySortToLeft, e1, e2, e3, e4, e5, hsorted]
    simp only [es, eh, ew, em, ef, Option.bind_eq_bind, Option.bind_some]
  · intro i j x y h1 h2 h3 h4
    obtain ⟨k, hk⟩ := rd_isSome (v := r0) (i := i) (by have := rd_some_lt (v := tail) h1; omega)
    obtain ⟨k', hk'⟩ := rd_isSome (v := r0) (i := j) (by have := rd_some_lt (v := tail) h3; omega)
    obtain ⟨p1, p2, _, _⟩ := hpos i k hk
    obtain ⟨p1', p2', _, _⟩ := hpos j k' hk'
    have : k = k' := hr.inj k k' x y (p1.symm.trans h1) (p2.symm.trans h2) (p1'.symm.trans h3) (p2'.symm.trans h4)
    subst this
    exact hr0P.inj hk hk'
  · intro x a b u v ha hb hab hu hv
    rcases Nat.lt_or_eq_of_le hab with hab | rfl
    · have ta := (hown a x).1 ha
      have tb := (hown b x).1 hb
      obtain ⟨k, hk⟩ := rd_isSome (v := r0) (i := a) (by have := rd_some_lt (v := tail) ta; omega)
      obtain ⟨k', hk'⟩ := rd_isSome (v := r0) (i := b) (by have := rd_some_lt (v := tail) tb; omega)
      obtain ⟨p1, p2, _, _⟩ := hpos a k hk
      obtain ⟨p1', p2', _, _⟩ := hpos b k' hk'
      have := g2.2.2 a b k k' x x u v hab hk hk' (p1.symm.trans ta) (p1'.symm.trans tb)
        (p2.symm.trans hu) (p2'.symm.trans hv)
      omega
    · simp only at hu hv
      rw [hu] at hv; cases hv; exact Nat.le_refl _

theorem mapElements_spec {p v : List Nat} (hp : IsPerm p) (hv : ∀ x ∈ v, x < p.length) :
    inplaceApplyPermutationToElementsOf p v = some (v.map (fn p)) := by
  unfold inplaceApplyPermutationToElementsOf
  have hall : (v.all fun x => decide (x < p.length)) = true := by simpa using hv
  simp only [checkPerm_of hp, Option.bind_eq_bind, Option.bind_some, hall, check_true]
  obtain ⟨r, e, h1, h2⟩ := fill_loop (n := v.length) (fun i => fn p (fn v i))
    (fun v i => (rd v i).bind fun vi => (rd p vi).bind fun x => wr v i x) v rfl
    (by
      intro r i hi hl hr
      rw [hr i (Nat.le_refl _), rd_fn hi, Option.bind_some,
        rd_fn (v := p) (hv _ (List.mem_of_getElem? (rd_fn hi))), Option.bind_some])
  rw [e]
  congr 1
  apply list_ext_rd (by simp [h1])
  intro i hi
  rw [h2 i (by omega)]
  unfold rd
  rw [List.getElem?_map, show v[i]? = some (fn v i) from rd_fn (by omega)]; rfl

/-- Renaming that keeps `invalid_id`. -/
def fnI (p : List Nat) (m : Nat) : Nat := if m = invalidId then invalidId else fn p m

theorem mapElementsI_spec {p v : List Nat} (hp : IsPerm p) (hv : ∀ x ∈ v, x < p.length ∨ x = invalidId) :
    inplaceApplyPermutationToPossiblyInvalidElementsOf p v = some (v.map (fnI p)) := by
  obtain ⟨r, e, h1, h2⟩ := Props.C05_inplace_possibly_invalid p v (isPerm_iff_perm.1 hp) hv
  rw [e]
  congr 1
  apply list_ext_rd (by simp [h1])
  intro i hi
  have hvi := rd_fn (v := v) (x := i) (by omega)
  rw [show rd r i = r[i]? from rfl, h2 i _ hvi]
  unfold rd
  rw [List.getElem?_map, show v[i]? = some (fn v i) from hvi]
  simp only [Option.map_some, fnI]
  split
  · rfl
  · rcases hv _ (List.mem_of_getElem? hvi) with h | h
    · exact rd_fn h
    · contradiction

theorem rd_map_fn {α β : Type} (f : α → β) (v : List α) (i : Nat) : rd (v.map f) i = (rd v i).map f := by
  unfold rd; exact List.getElem?_map

theorem rd_map_eq {f : Nat → Nat} {v : List Nat} {i y : Nat} :
    rd (v.map f) i = some y ↔ ∃ x, rd v i = some x ∧ f x = y := by
  rw [rd_map_fn, Option.map_eq_some_iff]

theorem renameRows_spec {n : Nat} {rank : List Nat} {r : ChRows} (hr : r.Ok) (hp : IsPerm rank)
    (hl : rank.length = n) (ht : ∀ x ∈ r.tail, x < n) (hh : ∀ x ∈ r.head, x < n)
    (hm : ∀ x ∈ r.mid, x < n ∨ x = invalidId) (hup : ∀ x y w m, r.Row x y w m → fn rank x < fn rank y) :
    ∃ r', renameRows rank r = some r' ∧ r'.Ok ∧ (∀ x ∈ r'.tail, x < n) ∧ (∀ x ∈ r'.head, x < n) ∧
      r'.head.length = r.head.length ∧ r'.weight = r.weight ∧
      ∀ x y w m, r'.Row x y w m ↔ ∃ x0 y0 m0, r.Row x0 y0 w m0 ∧ x = fn rank x0 ∧ y = fn rank y0 ∧
        m = fnI rank m0 := by
  have o2 := hr.head
  have o3 := hr.weight
  have o4 := hr.mid
  have hlt : ∀ x, x < n → fn rank x < n := by
    intro x hx
    obtain ⟨y, hy, hy'⟩ := hp.rd (i := x) (by omega)
    rw [fn_of_rd hy]; omega
  have hinj : ∀ x y, x < n → y < n → fn rank x = fn rank y → x = y := by
    intro x y hx hy e
    exact hp.inj (rd_fn (v := rank) (by omega)) (by rw [e]; exact rd_fn (v := rank) (by omega))
  refine ⟨⟨r.tail.map (fn rank), r.head.map (fn rank), r.weight, r.mid.map (fnI rank)⟩, ?_,
    ⟨by simp [o2], by simp [o3], by simp [o4], ?_⟩, ?_, ?_, by simp, rfl, ?_⟩
  · unfold renameRows
    rw [mapElements_spec hp (by rw [hl]; exact hh), mapElements_spec hp (by rw [hl]; exact ht),
      mapElementsI_spec hp (by rw [hl]; exact hm)]
    simp only [Option.bind_eq_bind, Option.bind_some]
    obtain ⟨u, eu, _⟩ := forRange_inv (f := fun (_ : Unit) i => (rd (r.tail.map (fn rank)) i).bind fun t =>
      (rd (r.head.map (fn rank)) i).bind fun h => check (decide (t < h))) (lo := 0) (hi := (r.tail.map (fn rank)).length)
      (s := ()) (fun _ _ => True) (Nat.zero_le _) trivial (by
        intro i s _ hi _
        rw [List.length_map] at hi
        obtain ⟨x, hx⟩ := rd_isSome (v := r.tail) (i := i) hi
        obtain ⟨y, hy⟩ := rd_isSome (v := r.head) (i := i) (by omega)
        obtain ⟨w, hw⟩ := rd_isSome (v := r.weight) (i := i) (by omega)
        obtain ⟨m, hm⟩ := rd_isSome (v := r.mid) (i := i) (by omega)
        have := hup x y w m ⟨i, hx, hy, hw, hm⟩
        exact ⟨(), by simp [rd_map_fn, hx, hy, this], trivial⟩)
    rw [eu]
    simp
  · intro i j x y h1 h2 h3 h4
    simp only [rd_map_eq] at h1 h2 h3 h4
    obtain ⟨a1, b1, c1⟩ := h1
    obtain ⟨a2, b2, c2⟩ := h2
    obtain ⟨a3, b3, c3⟩ := h3
    obtain ⟨a4, b4, c4⟩ := h4
    have e1 := hinj a1 a3 (ht _ (List.mem_of_getElem? b1)) (ht _ (List.mem_of_getElem? b3)) (c1.trans c3.symm)
    have e2 := hinj a2 a4 (hh _ (List.mem_of_getElem? b2)) (hh _ (List.mem_of_getElem? b4)) (c2.trans c4.symm)
    subst e1 e2
    exact hr.inj i j _ _ b1 b2 b3 b4
  · intro x hx
    obtain ⟨y, hy, rfl⟩ := List.mem_map.1 hx
    exact hlt y (ht y hy)
  · intro x hx
    obtain ⟨y, hy, rfl⟩ := List.mem_map.1 hx
    exact hlt y (hh y hy)
  · intro x y w m
    constructor
    · rintro ⟨j, h1, h2, h3, h4⟩
      simp only [rd_map_eq] at h1 h2 h4
      obtain ⟨a1, b1, c1⟩ := h1
      obtain ⟨a2, b2, c2⟩ := h2
      obtain ⟨a4, b4, c4⟩ := h4
      exact ⟨a1, a2, a4, ⟨j, b1, b2, h3, b4⟩, c1.symm, c2.symm, c4.symm⟩
    · rintro ⟨x0, y0, m0, ⟨j, h1, h2, h3, h4⟩, rfl, rfl, rfl⟩
      exact ⟨j, rd_map_eq.2 ⟨x0, h1, rfl⟩, rd_map_eq.2 ⟨y0, h2, rfl⟩, h3, rd_map_eq.2 ⟨m0, h4, rfl⟩⟩

end RK
