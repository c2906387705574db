import Verif.Proof.ChFinish
import Verif.Proof.BitVector
/-! Helper lemmas: the finished hierarchy, its unpacking vectors and what queries rely on. -/
namespace RK
open Spec

/-- Arc `a` of this direction leads from `x` up to `y`. -/
def ChSide.Arc (s : ChSide) : ArcRel := csrArcs s.firstOut s.head s.weight

def ChSide.R (s : ChSide) : ArcR := fun x y w => ∃ a, s.Arc a x y w

structure SideOk (n : Nat) (s : ChSide) : Prop where
  csr : IsCSR n s.firstOut s.head
  weight : s.weight.length = s.head.length
  size : s.head.length ≤ invalidId
  strict : ∀ x a b u v : Nat, OutArc s.firstOut x a → OutArc s.firstOut x b → a < b →
    s.head[a]? = some u → s.head[b]? = some v → u < v

/-- The unpacking vectors have an entry for every arc. -/
def Unpackable (s : ChSide) (B : List Bool) : Prop :=
  s.isOriginal.Rep B ∧ B.length = s.head.length ∧ s.first.length = s.head.length ∧ s.second.length = s.head.length

/-- How an arc from `p` to `q` of weight `w` is unpacked; `In` is the input graph. -/
def Expands (In : ArcRel) (order : List Nat) (F B : ArcRel) (o : Bool) (i j p q w : Nat) : Prop :=
  (o = true ∧ ∃ x y, rd order p = some x ∧ rd order q = some y ∧ In i x y w ∧ j = y) ∨
  (o = false ∧ ∃ z w1 w2, B i z p w1 ∧ F j z q w2 ∧ w = w1 + w2)

/-- Position `a` of the unpacking vectors. -/
structure UnpackAt (first second : List Nat) (bits : BitVector) (a : Nat) (o : Bool) (i j : Nat) : Prop where
  bit : bits.isSet a = some o
  first : rd first a = some i
  second : rd second a = some j

/-- `ch` is a hierarchy for the graph `In` with `n` nodes. -/
structure ChOk (n : Nat) (In : ArcRel) (ch : Ch) : Prop where
  rankLen : ch.rank.length = n
  orderLen : ch.order.length = n
  rankPerm : IsPerm ch.rank
  inv : ∀ i x, i < n → (rd ch.rank x = some i ↔ rd ch.order i = some x)
  fwd : SideOk n ch.forward
  bwd : SideOk n ch.backward
  hier : HierB n (fun x => x) ch.forward.R ch.backward.R infWeight
  exF : ∀ a x y w, ch.forward.Arc a x y w → ∃ o i j,
    UnpackAt ch.forward.first ch.forward.second ch.forward.isOriginal a o i j ∧
    Expands In ch.order ch.forward.Arc ch.backward.Arc o i j x y w
  exB : ∀ a x y w, ch.backward.Arc a x y w → ∃ o i j,
    UnpackAt ch.backward.first ch.backward.second ch.backward.isOriginal a o i j ∧
    Expands In ch.order ch.forward.Arc ch.backward.Arc o i j y x w
  dom : ∀ a x y w, In a x y w → x ≠ y → w < infWeight → ∃ p q l, rd ch.rank x = some p ∧ rd ch.rank y = some q ∧
    l ≤ w ∧ RWalk (UR (fun x => x) 0 ch.forward.R ch.backward.R) p q l

/-! ### Loops over all arcs -/

theorem forArcs_inv {n : Nat} {fo head : List Nat} (hg : IsCSR n fo head) {f : Nat → Unpack → Nat → Option Unpack}
    (P : Nat → Unpack → Prop) {s : Unpack} (h0 : P 0 s)
    (hs : ∀ a x s, OutArc fo x a → P a s → ∃ s', f x s a = some s' ∧ P (a + 1) s') :
    ∃ s', forArcs n fo s f = some s' ∧ P head.length s' := by
  obtain ⟨s', e, b, hb, hP⟩ := forRange_inv (lo := 0) (hi := n) (s := s)
    (f := fun s x => (rd fo x).bind fun b => (rd fo (x + 1)).bind fun e => forRange b e s (f x))
    (fun x s => ∃ b, rd fo x = some b ∧ P b s) (Nat.zero_le n) ⟨0, hg.first, h0⟩
    (by
      rintro x s _ hx ⟨b, hb, hP⟩
      obtain ⟨b', e, hb', he, hbe, _⟩ := hg.range hx
      have : some b = some b' := hb.symm.trans hb'
      cases this
      obtain ⟨s', es, hP'⟩ := forRange_inv (f := f x) P hbe hP
        (fun a s h1 h2 h3 => hs a x s ⟨b, e, hb, he, h1, h2⟩ h3)
      exact ⟨s', by simp [hb, show rd fo (x + 1) = some e from he, es], e, he, hP'⟩)
  have : some b = some head.length := hb.symm.trans hg.last
  cases this
  exact ⟨s', e, hP⟩

/-- The unpacking vectors when the first `k` entries are good. -/
def UState (m : Nat) (Good : Nat → Bool → Nat → Nat → Prop) (k : Nat) (s : Unpack) : Prop :=
  ∃ B, BitVector.Rep s.isOriginal B ∧ B.length = m ∧ s.first.length = m ∧ s.second.length = m ∧
    ∀ a, a < k → Good a (BitVector.at' B a) (fn s.first a) (fn s.second a)

theorem UState.start {m : Nat} {Good : Nat → Bool → Nat → Nat → Prop} (hm : m ≤ invalidId) (junk : Nat → Word) :
    ∃ s, newUnpack m junk = some s ∧ UState m Good 0 s := by
  obtain ⟨v, B, e, hr, hl⟩ := BitVector.rep_newUninit (n := m) (by
    have : invalidId = 4294967295 := rfl
    have : u64 = 18446744073709551616 := rfl
    omega) junk
  exact ⟨⟨List.replicate m 0, List.replicate m 0, v⟩, by simp [newUnpack, e], B, hr, hl, by simp, by simp,
    fun a ha => absurd ha (Nat.not_lt_zero a)⟩

theorem UState.put {m k i j : Nat} {Good : Nat → Bool → Nat → Nat → Prop} {s : Unpack} (h : UState m Good k s)
    (hk : k < m) {o : Bool} {bits : BitVector}
    (hb : (if o then s.isOriginal.set k else s.isOriginal.reset k) = some bits) (hg : Good k o i j) :
    UState m Good (k + 1) ⟨s.first.set k i, s.second.set k j, bits⟩ := by
  obtain ⟨B, hr, hl, h1, h2, h3⟩ := h
  have hB : BitVector.Rep bits (B.set k o) := by
    cases o
    · obtain ⟨v, e, hv⟩ := hr.reset (x := k) (by omega)
      simp only [Bool.false_eq_true, if_false] at hb
      rw [e] at hb; cases hb; exact hv
    · obtain ⟨v, e, hv⟩ := hr.set (x := k) (by omega)
      simp only [if_true] at hb
      rw [e] at hb; cases hb; exact hv
  refine ⟨_, hB, by simp [hl], by simp [h1], by simp [h2], ?_⟩
  intro a ha
  by_cases hak : a = k
  · subst hak
    rw [BitVector.at_set (by omega), if_pos rfl, fn_set (by omega), if_pos rfl, fn_set (by omega), if_pos rfl]
    exact hg
  · rw [BitVector.at_set (by omega), if_neg hak, fn_set (by omega), if_neg hak, fn_set (by omega), if_neg hak]
    exact h3 a (by omega)

theorem bits_total {m k : Nat} {Good : Nat → Bool → Nat → Nat → Prop} {s : Unpack} (h : UState m Good k s)
    (hk : k < m) (o : Bool) : ∃ bits, (if o then s.isOriginal.set k else s.isOriginal.reset k) = some bits := by
  obtain ⟨B, hr, hl, _⟩ := h
  cases o
  · obtain ⟨v, e, _⟩ := hr.reset (x := k) (by omega)
    exact ⟨v, e⟩
  · obtain ⟨v, e, _⟩ := hr.set (x := k) (by omega)
    exact ⟨v, e⟩

/-! ### Finding arcs -/

theorem findSorted {n : Nat} {fo head : List Nat} (hg : IsCSR n fo head) (hs : ∀ x a b u v : Nat, OutArc fo x a →
      OutArc fo x b → a ≤ b → head[a]? = some u → head[b]? = some v → u ≤ v) (hsize : head.length ≤ invalidId)
    {x y a : Nat} (ha : OutArc fo x a) (hy : head[a]? = some y) :
    ∃ r, findArcGivenSortedHead fo head x y = some r ∧ OutArc fo x r ∧ head[r]? = some y := by
  have hx : x < n := by
    obtain ⟨b, e, _, he, _⟩ := ha
    have := rd_some_lt (v := fo) he
    have := hg.length
    omega
  obtain ⟨r, e, h⟩ := Props.C49_find_arc_or_return_invalid_given_sorted_head n fo head hg hs x y hx (hg.head_lt a y hy)
  rcases h with ⟨h1, h2, _⟩ | ⟨_, h⟩
  · have : r < head.length := rd_some_lt (v := head) h2
    have hc : decide (r ≠ invalidId) = true := by simp; omega
    exact ⟨r, by unfold findArcGivenSortedHead; simp only [e, hc, Option.bind_eq_bind, Option.bind_some, check_true], h1, h2⟩
  · exact absurd hy (h a ha)

/-- The row at the position of an arc. -/
theorem SortedRows.row {n : Nat} {fo : List Nat} {r : ChRows} (h : SortedRows n fo r) {a x : Nat} (ha : OutArc fo x a) :
    ∃ y w m, rd r.tail a = some x ∧ rd r.head a = some y ∧ rd r.weight a = some w ∧ rd r.mid a = some m ∧
      r.Row x y w m ∧ a < r.head.length := by
  have h1 := (h.own a x).1 ha
  have hl := rd_some_lt h1
  have l1 := h.ok.head
  have l2 := h.ok.weight
  have l3 := h.ok.mid
  obtain ⟨y, hy⟩ := rd_isSome (v := r.head) (i := a) (by omega)
  obtain ⟨w, hw⟩ := rd_isSome (v := r.weight) (i := a) (by omega)
  obtain ⟨m, hm⟩ := rd_isSome (v := r.mid) (i := a) (by omega)
  exact ⟨y, w, m, h1, hy, hw, hm, ⟨a, h1, hy, hw, hm⟩, by omega⟩

/-- The arc of a row is found by search. -/
theorem SortedRows.find {n : Nat} {fo : List Nat} {r : ChRows} (h : SortedRows n fo r)
    (hsize : r.head.length ≤ invalidId) {x y w m : Nat} (hr : r.Row x y w m) :
    ∃ a, findArcGivenSortedHead fo r.head x y = some a ∧ csrArcs fo r.head r.weight a x y w := by
  obtain ⟨j, h1, h2, h3, _⟩ := hr
  have hj := (h.own j x).2 h1
  obtain ⟨a, e, ha, hy⟩ := findSorted h.csr h.sorted hsize hj h2
  have := h.ok.inj j a x y h1 h2 ((h.own a x).1 ha) hy
  subst this
  exact ⟨j, e, ha, hy, h3⟩

/-- What is needed about the reduced input. -/
structure InputOk (n : Nat) (In : ArcRel) (inp : ArcCols) (fo : List Nat) : Prop where
  csr : IsCSR n fo inp.head
  sorted : ∀ x a b u v : Nat, OutArc fo x a → OutArc fo x b → a ≤ b →
    inp.head[a]? = some u → inp.head[b]? = some v → u ≤ v
  own : ∀ a x, OutArc fo x a ↔ rd inp.tail a = some x
  size : inp.head.length ≤ invalidId
  weight : inp.weight.length = inp.head.length
  id : inp.id.length = inp.head.length
  inj : ∀ a b x y, rd inp.tail a = some x → rd inp.head a = some y → rd inp.tail b = some x →
    rd inp.head b = some y → a = b
  src : ∀ a x y w, listArcs inp.tail inp.head inp.weight a x y w → ∃ i, rd inp.id a = some i ∧ In i x y w

theorem InputOk.find {n : Nat} {In : ArcRel} {inp : ArcCols} {fo : List Nat} (h : InputOk n In inp fo) {a x y w : Nat}
    (ha : listArcs inp.tail inp.head inp.weight a x y w) :
    ∃ a i, findArcGivenSortedHead fo inp.head x y = some a ∧ rd inp.id a = some i ∧ rd inp.head a = some y ∧
      In i x y w := by
  obtain ⟨h1, h2, h3⟩ := ha
  obtain ⟨r, e, hr, hy⟩ := findSorted h.csr h.sorted h.size ((h.own a x).2 h1) h2
  have := h.inj a r x y h1 h2 ((h.own r x).1 hr) hy
  subst this
  obtain ⟨i, hi, hin⟩ := h.src a x y w ⟨h1, h2, h3⟩
  exact ⟨a, i, e, hi, h2, hin⟩

section Unpacking
variable {n : Nat} {In : ArcRel} {inp : ArcCols} {fo order ffo bfo : List Nat} {f b : ChRows}

theorem unpackOriginal_spec (hin : InputOk n In inp fo) {Good : Nat → Bool → Nat → Nat → Prop} {m k u v w a : Nat}
    {s : Unpack} (h : UState m Good k s) (hk : k < m) (ha : listArcs inp.tail inp.head inp.weight a u v w)
    (hg : ∀ i, In i u v w → Good k true i v) :
    ∃ s', unpackOriginal fo inp.head inp.id k u v s = some s' ∧ UState m Good (k + 1) s' := by
  obtain ⟨bits, hb⟩ := bits_total h hk true
  obtain ⟨c, i, e, hi, hv, hIn⟩ := hin.find ha
  have h' := h.put hk hb (hg i hIn)
  obtain ⟨B, _, _, l1, l2, _⟩ := h
  refine ⟨_, ?_, h'⟩
  unfold unpackOriginal
  simp only [if_true] at hb
  simp only [hb, e, hi, hv, Option.bind_eq_bind, Option.bind_some, wr_lt (v := s.first) (i := k) (by omega),
    wr_lt (v := s.second) (i := k) (by omega)]

theorem unpackShortcut_spec (hf : SortedRows n ffo f) (hb : SortedRows n bfo b) (sf : f.head.length ≤ invalidId)
    (sb : b.head.length ≤ invalidId) {Good : Nat → Bool → Nat → Nat → Prop} {m k u v z w1 w2 m1 m2 : Nat}
    {s : Unpack} (h : UState m Good k s) (hk : k < m) (h1 : b.Row z u w1 m1) (h2 : f.Row z v w2 m2)
    (hg : ∀ i j, csrArcs bfo b.head b.weight i z u w1 → csrArcs ffo f.head f.weight j z v w2 → Good k false i j) :
    ∃ s' i j, unpackShortcut bfo b.head ffo f.head k z u v s = some s' ∧ UState m Good (k + 1) s' ∧
      rd s'.first k = some i ∧ rd s'.second k = some j ∧ rd b.weight i = some w1 ∧ rd f.weight j = some w2 := by
  obtain ⟨bits, hbits⟩ := bits_total h hk false
  obtain ⟨i, ei, hi⟩ := hb.find sb h1
  obtain ⟨j, ej, hj⟩ := hf.find sf h2
  have h' := h.put hk hbits (hg i j hi hj)
  obtain ⟨B, _, _, l1, l2, _⟩ := h
  refine ⟨_, i, j, ?_, h', ?_, ?_, hi.2.2, hj.2.2⟩
  · unfold unpackShortcut
    simp only [Bool.false_eq_true, if_false] at hbits
    simp only [hbits, ei, ej, Option.bind_eq_bind, Option.bind_some, wr_lt (v := s.first) (i := k) (by omega),
      wr_lt (v := s.second) (i := k) (by omega)]
  · simp only; rw [rd_set (by omega), if_pos rfl]
  · simp only; rw [rd_set (by omega), if_pos rfl]

/-- Rows with the unpacking data in terms of the final node ids. -/
structure RealRows (n : Nat) (inp : ArcCols) (order : List Nat) (F B : RowR) : Prop where
  real : ∀ p q w m, F p q w m ∨ B q p w m →
    (m = invalidId ∧ ∃ u v a, rd order p = some u ∧ rd order q = some v ∧
      listArcs inp.tail inp.head inp.weight a u v w) ∨
    (m ≠ invalidId ∧ ∃ w1 w2 m1 m2, B m p w1 m1 ∧ F m q w2 m2 ∧ w = w1 + w2)
  light : ∀ p q w m, F p q w m ∨ B q p w m → w < u32

/-- What is stored for position `a` of a direction. -/
def GoodAt (In : ArcRel) (order : List Nat) (F B : ArcRel) (flip : Bool) (Arc : ArcRel) (a : Nat) (o : Bool)
    (i j : Nat) : Prop :=
  ∀ x y w, Arc a x y w → if flip then Expands In order F B o i j y x w else Expands In order F B o i j x y w

theorem csr_unique {fo head weight : List Nat} {n a x y w x' y' w' : Nat} (hg : IsCSR n fo head)
    (hown : ∀ a x, OutArc fo x a ↔ rd tail a = some x)
    (h : csrArcs fo head weight a x y w) (h' : csrArcs fo head weight a x' y' w') : x = x' ∧ y = y' ∧ w = w' := by
  obtain ⟨h1, h2, h3⟩ := h
  obtain ⟨h1', h2', h3'⟩ := h'
  rw [hown] at h1 h1'
  rw [h1] at h1'; rw [h2] at h2'; rw [h3] at h3'
  cases h1'; cases h2'; cases h3'
  exact ⟨rfl, rfl, rfl⟩

theorem unpackForward_spec (hin : InputOk n In inp fo) (hf : SortedRows n ffo f) (hb : SortedRows n bfo b)
    (sf : f.head.length ≤ invalidId) (sb : b.head.length ≤ invalidId) (hr : RealRows n inp order f.Row b.Row)
    {s : Unpack}
    (h0 : UState f.head.length (GoodAt In order (csrArcs ffo f.head f.weight) (csrArcs bfo b.head b.weight) false
      (csrArcs ffo f.head f.weight)) 0 s) :
    ∃ s', forArcs n ffo s (unpackForwardStep fo inp.head inp.id order ffo bfo f b) = some s' ∧
      UState f.head.length (GoodAt In order (csrArcs ffo f.head f.weight) (csrArcs bfo b.head b.weight) false
        (csrArcs ffo f.head f.weight)) f.head.length s' := by
  refine forArcs_inv hf.csr _ h0 ?_
  intro a x s ha hs
  obtain ⟨y, w, m, ht, hy, hw, hm, hrow, hal⟩ := hf.row ha
  have harc : csrArcs ffo f.head f.weight a x y w := ⟨ha, hy, hw⟩
  unfold unpackForwardStep
  simp only [hy, hm, Option.bind_eq_bind, Option.bind_some]
  rcases hr.real x y w m (Or.inl hrow) with ⟨rfl, u, v, c, hu, hv, hc⟩ | ⟨hne, w1, w2, m1, m2, h1, h2, rfl⟩
  · rw [if_pos rfl]
    simp only [hu, hv, Option.bind_some]
    refine unpackOriginal_spec hin hs hal hc ?_
    intro i hi x' y' w' h'
    obtain ⟨rfl, rfl, rfl⟩ := csr_unique hf.csr hf.own harc h'
    exact Or.inl ⟨rfl, u, v, hu, hv, hi, rfl⟩
  · rw [if_neg hne]
    obtain ⟨s', i, j, e, hs', ei, ej, ewi, ewj⟩ := unpackShortcut_spec (Good := GoodAt In order
      (csrArcs ffo f.head f.weight) (csrArcs bfo b.head b.weight) false (csrArcs ffo f.head f.weight))
      hf hb sf sb hs hal h1 h2 (by
        intro i j hi hj x' y' w' h'
        obtain ⟨rfl, rfl, rfl⟩ := csr_unique hf.csr hf.own harc h'
        exact Or.inr ⟨rfl, m, w1, w2, hi, hj, rfl⟩)
    have hlight := hr.light x y (w1 + w2) m (Or.inl hrow)
    have hc : decide (w1 + w2 = add32 w1 w2) = true := by rw [WitnessSearch.add32_eq (Nat.le_refl _) hlight]; simp
    refine ⟨s', ?_, hs'⟩
    simp only [e, hw, ei, ej, ewi, ewj, hc, check_true, Option.bind_some]

theorem unpackBackward_spec (hin : InputOk n In inp fo) (hf : SortedRows n ffo f) (hb : SortedRows n bfo b)
    (sf : f.head.length ≤ invalidId) (sb : b.head.length ≤ invalidId) (hr : RealRows n inp order f.Row b.Row)
    {s : Unpack}
    (h0 : UState b.head.length (GoodAt In order (csrArcs ffo f.head f.weight) (csrArcs bfo b.head b.weight) true
      (csrArcs bfo b.head b.weight)) 0 s) :
    ∃ s', forArcs n bfo s (unpackBackwardStep fo inp.head inp.id order ffo bfo f b) = some s' ∧
      UState b.head.length (GoodAt In order (csrArcs ffo f.head f.weight) (csrArcs bfo b.head b.weight) true
        (csrArcs bfo b.head b.weight)) b.head.length s' := by
  refine forArcs_inv hb.csr _ h0 ?_
  intro a x s ha hs
  obtain ⟨y, w, m, ht, hy, hw, hm, hrow, hal⟩ := hb.row ha
  have harc : csrArcs bfo b.head b.weight a x y w := ⟨ha, hy, hw⟩
  unfold unpackBackwardStep
  simp only [hy, hm, Option.bind_eq_bind, Option.bind_some]
  rcases hr.real y x w m (Or.inr hrow) with ⟨rfl, u, v, c, hu, hv, hc⟩ | ⟨hne, w1, w2, m1, m2, h1, h2, rfl⟩
  · rw [if_pos rfl]
    simp only [hu, hv, Option.bind_some]
    refine unpackOriginal_spec hin hs hal hc ?_
    intro i hi x' y' w' h'
    obtain ⟨rfl, rfl, rfl⟩ := csr_unique hb.csr hb.own harc h'
    exact Or.inl ⟨rfl, u, v, hu, hv, hi, rfl⟩
  · rw [if_neg hne]
    obtain ⟨s', i, j, e, hs', _⟩ := unpackShortcut_spec (Good := GoodAt In order
      (csrArcs ffo f.head f.weight) (csrArcs bfo b.head b.weight) true (csrArcs bfo b.head b.weight))
      hf hb sf sb hs hal h1 h2 (by
        intro i j hi hj x' y' w' h'
        obtain ⟨rfl, rfl, rfl⟩ := csr_unique hb.csr hb.own harc h'
        exact Or.inr ⟨rfl, m, w1, w2, hi, hj, rfl⟩)
    exact ⟨s', e, hs'⟩

end Unpacking
end RK
