import Verif.Proof.CchUp
/-! Helper lemmas: the down graph and the enumeration of triangles. -/
namespace RK
open Spec BitVector

/-! ### `mapM` -/

theorem mapM_spec {α β : Type} {f : α → Option β} : ∀ {l : List α}, (∀ x ∈ l, ∃ y, f x = some y) →
    ∃ r, l.mapM f = some r ∧ r.length = l.length ∧ (∀ i x, rd l i = some x → rd r i = f x) ∧
      ∀ y, y ∈ r ↔ ∃ x ∈ l, f x = some y
  | [], _ => ⟨[], rfl, rfl, fun i x h => by simp [rd] at h, by simp⟩
  | x :: l, h => by
    obtain ⟨y, hy⟩ := h x (by simp)
    obtain ⟨r, e, h1, h2, h3⟩ := mapM_spec (l := l) (fun z hz => h z (by simp [hz]))
    refine ⟨y :: r, by simp [List.mapM_cons, hy, e], by simp [h1], ?_, ?_⟩
    · intro i z hi
      cases i with
      | zero => simp only [rd, List.getElem?_cons_zero, Option.some.injEq] at hi ⊢; rw [← hi, hy]
      | succ i => simp only [rd, List.getElem?_cons_succ] at hi ⊢; exact h2 i z hi
    · intro z
      rw [List.mem_cons, h3]
      constructor
      · rintro (rfl | ⟨w, hw, e⟩)
        · exact ⟨x, by simp, hy⟩
        · exact ⟨w, by simp [hw], e⟩
      · rintro ⟨w, hw, e⟩
        rcases List.mem_cons.1 hw with rfl | hw
        · rw [hy] at e; cases e; exact Or.inl rfl
        · exact Or.inr ⟨w, hw, e⟩

/-! ### Joining two sorted ranges -/

/-- The range `[i, e)` of `v` increases strictly. -/
structure StrictRange (v : List Nat) (i e : Nat) : Prop where
  le : i ≤ e
  len : e ≤ v.length
  lt : ∀ p q x y, i ≤ p → p < q → q < e → rd v p = some x → rd v q = some y → x < y

theorem StrictRange.tail {v : List Nat} {i e : Nat} (s : StrictRange v i e) (h : i ≠ e) : StrictRange v (i + 1) e :=
  ⟨by have := s.le; omega, s.len, fun p q x y h1 => s.lt p q x y (by omega)⟩

theorem joinLoop_spec {ha hb : List Nat} {ie je : Nat} : ∀ {fuel i j : Nat}, StrictRange ha i ie → StrictRange hb j je →
    (ie - i) + (je - j) < fuel →
    ∃ l, joinLoop ha hb fuel i ie j je = some l ∧
      ∀ p q z, (p, q, z) ∈ l ↔ (i ≤ p ∧ p < ie) ∧ (j ≤ q ∧ q < je) ∧ rd ha p = some z ∧ rd hb q = some z
  | 0, i, j, _, _, h => by omega
  | fuel + 1, i, j, s1, s2, hf => by
    have l1 := s1.le
    have l2 := s2.le
    have m1 := s1.len
    have m2 := s2.len
    unfold joinLoop
    by_cases hc : i ≠ ie ∧ j ≠ je
    · rw [if_pos hc]
      obtain ⟨x, ex⟩ := rd_isSome (v := ha) (i := i) (by omega)
      obtain ⟨y, ey⟩ := rd_isSome (v := hb) (i := j) (by omega)
      simp only [ex, ey, Option.bind_eq_bind, Option.bind_some]
      have gei : ∀ p z, i < p → p < ie → rd ha p = some z → x < z :=
        fun p z h1 h2 h3 => s1.lt i p x z (Nat.le_refl _) h1 h2 ex h3
      have gej : ∀ q z, j < q → q < je → rd hb q = some z → y < z :=
        fun q z h1 h2 h3 => s2.lt j q y z (Nat.le_refl _) h1 h2 ey h3
      by_cases h1 : x < y
      · rw [if_pos h1]
        obtain ⟨l, e, hl⟩ := joinLoop_spec (fuel := fuel) (s1.tail hc.1) s2 (by omega)
        refine ⟨l, e, ?_⟩
        intro p q z
        rw [hl]
        constructor
        · rintro ⟨⟨a1, a2⟩, a3, a4⟩; exact ⟨⟨by omega, a2⟩, a3, a4⟩
        · rintro ⟨⟨a1, a2⟩, ⟨a3, a4⟩, a5, a6⟩
          refine ⟨⟨?_, a2⟩, ⟨a3, a4⟩, a5, a6⟩
          by_cases hpi : p = i
          · subst hpi
            have := rd_congr_some ex a5
            by_cases hqj : q = j
            · subst hqj; have := rd_congr_some ey a6; omega
            · have := gej q z (by omega) a4 a6; omega
          · omega
      · rw [if_neg h1]
        by_cases h2 : x > y
        · rw [if_pos h2]
          obtain ⟨l, e, hl⟩ := joinLoop_spec (fuel := fuel) s1 (s2.tail hc.2) (by omega)
          refine ⟨l, e, ?_⟩
          intro p q z
          rw [hl]
          constructor
          · rintro ⟨a3, ⟨a1, a2⟩, a4⟩; exact ⟨a3, ⟨by omega, a2⟩, a4⟩
          · rintro ⟨⟨a1, a2⟩, ⟨a3, a4⟩, a5, a6⟩
            refine ⟨⟨a1, a2⟩, ⟨?_, a4⟩, a5, a6⟩
            by_cases hqj : q = j
            · subst hqj
              have := rd_congr_some ey a6
              by_cases hpi : p = i
              · subst hpi; have := rd_congr_some ex a5; omega
              · have := gei p z (by omega) a2 a5; omega
            · omega
        · rw [if_neg h2]
          have hxy : x = y := by omega
          subst hxy
          obtain ⟨l, e, hl⟩ := joinLoop_spec (fuel := fuel) (s1.tail hc.1) (s2.tail hc.2) (by omega)
          simp only [e, Option.bind_some]
          refine ⟨(i, j, x) :: l, rfl, ?_⟩
          intro p q z
          rw [List.mem_cons, hl]
          constructor
          · rintro (h | ⟨⟨a1, a2⟩, ⟨a3, a4⟩, a5, a6⟩)
            · simp only [Prod.mk.injEq] at h
              obtain ⟨rfl, rfl, rfl⟩ := h
              exact ⟨⟨Nat.le_refl _, by omega⟩, ⟨Nat.le_refl _, by omega⟩, ex, ey⟩
            · exact ⟨⟨by omega, a2⟩, ⟨by omega, a4⟩, a5, a6⟩
          · rintro ⟨⟨a1, a2⟩, ⟨a3, a4⟩, a5, a6⟩
            by_cases hpi : p = i
            · subst hpi
              have hz := rd_congr_some ex a5
              by_cases hqj : q = j
              · subst hqj; subst hz; exact Or.inl rfl
              · have := gej q z (by omega) a4 a6; omega
            · have hz := gei p z (by omega) a2 a5
              by_cases hqj : q = j
              · subst hqj; have := rd_congr_some ey a6; omega
              · exact Or.inr ⟨⟨by omega, a2⟩, ⟨by omega, a4⟩, a5, a6⟩
    · rw [if_neg hc]
      refine ⟨[], rfl, ?_⟩
      intro p q z
      simp only [List.not_mem_nil, false_iff]
      rintro ⟨⟨a1, a2⟩, ⟨a3, a4⟩, _⟩
      apply hc
      omega

theorem join_spec {ha hb : List Nat} {i ie j je : Nat} (s1 : StrictRange ha i ie) (s2 : StrictRange hb j je) :
    ∃ l, join ha hb i ie j je = some l ∧
      ∀ p q z, (p, q, z) ∈ l ↔ (i ≤ p ∧ p < ie) ∧ (j ≤ q ∧ q < je) ∧ rd ha p = some z ∧ rd hb q = some z :=
  joinLoop_spec s1 s2 (by omega)

/-! ### Triangles -/

/-- The arcs of `T` are `x → y`, `x → z` and `y → z`. -/
structure TriAt (tail head : List Nat) (T : Tri) (x y z : Nat) : Prop where
  bt : rd tail T.bottom = some x
  bh : rd head T.bottom = some y
  mt : rd tail T.mid = some x
  mh : rd head T.mid = some z
  tt : rd tail T.top = some y
  th : rd head T.top = some z

/-- The range of the arcs with tail `x` in a sorted arc list. -/
theorem SortedArcs.row {t h : List Nat} (s : SortedArcs t h) (x : Nat) :
    StrictRange h (cLt t x) (cLt t (x + 1)) := by
  refine ⟨cLt_mono t (by omega), by have := cLt_le_length t (x + 1); have := s.1; omega, ?_⟩
  intro p q a b h1 h2 h3 ha hb
  have hp := (cLt_range (a := p) (x := x) s.pairwise).2 ⟨h1, by omega⟩
  have hq := (cLt_range (a := q) (x := x) s.pairwise).2 ⟨by omega, h3⟩
  rcases s.2 p q x x a b h2 hp hq ha hb with h | ⟨_, h⟩ <;> omega

theorem StrictRange.sub {v : List Nat} {i e i' e' : Nat} (s : StrictRange v i e) (h1 : i ≤ i') (h2 : i' ≤ e') (h3 : e' ≤ e) :
    StrictRange v i' e' :=
  ⟨h2, by have := s.len; omega, fun p q x y a1 a2 a3 => s.lt p q x y (by omega) a2 (by omega)⟩

theorem upperTriangles_spec {n : Nat} {fo head tail : List Nat} (u : UpOk n fo head tail) {a x y : Nat}
    (hx : rd tail a = some x) (hy : rd head a = some y) :
    ∃ l, upperTriangles fo head tail a = some l ∧
      ∀ T, T ∈ l ↔ T.bottom = a ∧ ∃ z, TriAt tail head T x y z := by
  obtain ⟨hxy, hyn⟩ := u.up x y ⟨a, hx, hy⟩
  have hs := u.sorted.pairwise
  have ha := (cLt_range hs).1 hx
  unfold upperTriangles
  simp only [hx, hy, u.idx.2 (x + 1) (by omega), u.idx.2 y (by omega), u.idx.2 (y + 1) (by omega),
    Option.bind_eq_bind, Option.bind_some]
  obtain ⟨l, e, hl⟩ := join_spec (ha := head) (hb := head)
    ((u.sorted.row x).sub (i' := a + 1) (by omega) (by omega) (Nat.le_refl _)) (u.sorted.row y)
  rw [e]
  refine ⟨l.map fun t => ⟨a, t.1, t.2.1⟩, rfl, ?_⟩
  intro T
  rw [List.mem_map]
  constructor
  · rintro ⟨⟨p, q, z⟩, hm, rfl⟩
    obtain ⟨⟨h1, h2⟩, ⟨h3, h4⟩, h5, h6⟩ := (hl p q z).1 hm
    refine ⟨rfl, z, ⟨hx, hy, ?_, h5, ?_, h6⟩⟩
    · exact (cLt_range hs).2 ⟨by show cLt tail x ≤ p; omega, h2⟩
    · exact (cLt_range hs).2 ⟨h3, h4⟩
  · rintro ⟨hb, z, hT⟩
    refine ⟨(T.mid, T.top, z), ?_, by cases T; simp_all⟩
    rw [hl]
    have r1 := (cLt_range hs).1 hT.mt
    have r2 := (cLt_range hs).1 hT.tt
    refine ⟨⟨?_, r1.2⟩, r2, hT.mh, hT.th⟩
    have hyz := (u.up y z ⟨T.top, hT.tt, hT.th⟩).1
    rcases Nat.lt_or_ge a T.mid with h | h
    · exact h
    · exfalso
      rcases Nat.lt_or_eq_of_le h with h | h
      · rcases u.sorted.2 _ _ _ _ _ _ h hT.mt hx hT.mh hy with h' | ⟨_, h'⟩ <;> omega
      · have e1 := hT.mh
        rw [h] at e1
        have := rd_congr_some e1 hy
        omega

/-- The down graph. -/
structure DownOk (n : Nat) (upHead upTail fo head toUp : List Nat) : Prop where
  ex : ∃ dt, Sorted2 upHead upTail dt head toUp ∧ SortedArcs dt head ∧ IsIdx n dt fo

theorem buildDown_spec {n : Nat} {fo head tail : List Nat} (u : UpOk n fo head tail) :
    ∃ dfo dh dtu, buildDown n head tail = some (dfo, dh, dtu) ∧ DownOk n head tail dfo dh dtu := by
  obtain ⟨r, t', h', e1, e2, s⟩ := sortFwd_spec (n := n) (t := head) (h := tail) u.sorted.1.symm u.head_lt u.tail_lt
  obtain ⟨dfo, e3, l3, h3⟩ := invertVector_spec s.pairwise (s.lt_tail u.head_lt)
  refine ⟨dfo, h', r, ?_, t', s, s.strict (fun a b x y h1 h2 h3 h4 => u.sorted.inj h2 h1 h4 h3), l3, h3⟩
  unfold buildDown
  simp only [e1, e2, e3, Option.bind_eq_bind, Option.bind_some]

namespace Cch

/-- The up and the down graph of a CCH. -/
structure GraphOk (n : Nat) (c : Cch) : Prop where
  up : UpOk n c.upFirstOut c.upHead c.upTail
  down : DownOk n c.upHead c.upTail c.downFirstOut c.downHead c.downToUp

variable {n : Nat} {c : Cch}

/-- The down arcs of `y`. -/
theorem GraphOk.downRow (g : GraphOk n c) {y : Nat} (hy : y < n) :
    ∃ b e, rd c.downFirstOut y = some b ∧ rd c.downFirstOut (y + 1) = some e ∧ b ≤ e ∧ e ≤ c.upHead.length ∧
      StrictRange c.downHead b e ∧
      (∀ d, b ≤ d → d < e → ∃ a x, rd c.downToUp d = some a ∧ rd c.downHead d = some x ∧
        rd c.upTail a = some x ∧ rd c.upHead a = some y) ∧
      ∀ a x, rd c.upTail a = some x → rd c.upHead a = some y →
        ∃ d, b ≤ d ∧ d < e ∧ rd c.downToUp d = some a ∧ rd c.downHead d = some x := by
  obtain ⟨dt, s, sa, hi⟩ := g.down.ex
  have hs := sa.pairwise
  refine ⟨cLt dt y, cLt dt (y + 1), hi.2 y (by omega), hi.2 (y + 1) (by omega), cLt_mono dt (by omega),
    by rw [← s.lenT]; exact cLt_le_length dt _, sa.row y, ?_, ?_⟩
  · intro d h1 h2
    have hd := (cLt_range (a := d) (x := y) hs).2 ⟨h1, h2⟩
    have hdl := rd_some_lt hd
    obtain ⟨a, ha⟩ := rd_isSome (v := c.downToUp) (i := d) (by have := s.len; have := s.lenT; omega)
    obtain ⟨x, hx⟩ := rd_isSome (v := c.downHead) (i := d) (by have := s.lenH; have := s.lenT; omega)
    exact ⟨a, x, ha, hx, by rw [← s.head d a ha]; exact hx, by rw [← s.tail d a ha]; exact hd⟩
  · intro a x h1 h2
    obtain ⟨d, _, hd⟩ := s.perm.surj (x := a) (by have := rd_some_lt h2; have := s.len; omega)
    have r := (cLt_range (a := d) (x := y) hs).1 (by rw [s.tail d a hd]; exact h2)
    exact ⟨d, r.1, r.2, hd, by rw [s.head d a hd]; exact h1⟩

theorem GraphOk.toUp_inj (g : GraphOk n c) {d d' a : Nat} (h1 : rd c.downToUp d = some a) (h2 : rd c.downToUp d' = some a) :
    d = d' := by
  obtain ⟨dt, s, _⟩ := g.down.ex
  exact s.perm.inj h1 h2

theorem GraphOk.lowerTriangles_spec (g : GraphOk n c) {a x y : Nat} (hx : rd c.upTail a = some x)
    (hy : rd c.upHead a = some y) :
    ∃ l, c.lowerTriangles x y a = some l ∧
      ∀ T z, (T, z) ∈ l ↔ T.top = a ∧ TriAt c.upTail c.upHead T z x y := by
  obtain ⟨hxy, hyn⟩ := g.up.up x y ⟨a, hx, hy⟩
  obtain ⟨xb, xe, e1, e2, _, _, s1, f1, f1'⟩ := g.downRow (y := x) (by omega)
  obtain ⟨yb, ye, e3, e4, _, _, s2, f2, f2'⟩ := g.downRow (y := y) hyn
  unfold Cch.lowerTriangles
  simp only [e1, e2, e3, e4, Option.bind_eq_bind, Option.bind_some]
  obtain ⟨l, e, hl⟩ := join_spec s1 s2
  rw [e]
  simp only [Option.bind_some]
  have hf : ∀ t ∈ l, ∃ T b m z, c.lowTri a t = some T ∧ T = (⟨b, m, a⟩, z) ∧ TriAt c.upTail c.upHead ⟨b, m, a⟩ z x y := by
    rintro ⟨p, q, z⟩ hm
    obtain ⟨⟨h1, h2⟩, ⟨h3, h4⟩, h5, h6⟩ := (hl p q z).1 hm
    obtain ⟨b, xb', b1, b2, b3, b4⟩ := f1 p h1 h2
    obtain ⟨m, xm', m1, m2, m3, m4⟩ := f2 q h3 h4
    have z1 : xb' = z := rd_congr_some b2 h5
    have z2 : xm' = z := rd_congr_some m2 h6
    subst z1; subst z2
    refine ⟨(⟨b, m, a⟩, xm'), b, m, xm', ?_, rfl, ⟨b3, b4, m3, m4, hx, hy⟩⟩
    simp only [Cch.lowTri, Cch.downUp, b1, m1, Option.bind_eq_bind, Option.bind_some]
  obtain ⟨r, er, _, _, hr⟩ := mapM_spec (f := c.lowTri a) (l := l) (fun t ht => by
    obtain ⟨T, _, _, _, h, _⟩ := hf t ht; exact ⟨T, h⟩)
  refine ⟨r, er, ?_⟩
  intro T z
  rw [hr]
  constructor
  · rintro ⟨t, ht, e⟩
    obtain ⟨T', b, m, z', h1, h2, h3⟩ := hf t ht
    rw [h1] at e
    simp only [Option.some.injEq] at e
    rw [h2] at e
    simp only [Prod.mk.injEq] at e
    obtain ⟨rfl, rfl⟩ := e
    exact ⟨rfl, h3⟩
  · rintro ⟨ht, hT⟩
    obtain ⟨d1, a1, a2, a3, a4⟩ := f1' T.bottom z hT.bt hT.bh
    obtain ⟨d2, b1, b2, b3, b4⟩ := f2' T.mid z hT.mt hT.mh
    refine ⟨(d1, d2, z), (hl d1 d2 z).2 ⟨⟨a1, a2⟩, ⟨b1, b2⟩, a4, b4⟩, ?_⟩
    simp only [Cch.lowTri, Cch.downUp, a3, b3, Option.bind_eq_bind, Option.bind_some]
    cases T; simp_all

theorem GraphOk.intermediateTriangles_spec (g : GraphOk n c) {a x y : Nat} (hx : rd c.upTail a = some x)
    (hy : rd c.upHead a = some y) :
    ∃ l, c.intermediateTriangles a = some l ∧
      ∀ T, T ∈ l ↔ T.mid = a ∧ ∃ z, TriAt c.upTail c.upHead T x z y := by
  obtain ⟨hxy, hyn⟩ := g.up.up x y ⟨a, hx, hy⟩
  obtain ⟨yb, ye, e3, e4, _, _, s2, f2, f2'⟩ := g.downRow (y := y) hyn
  have hs := g.up.sorted.pairwise
  have ha := (cLt_range hs).1 hx
  unfold Cch.intermediateTriangles
  simp only [hx, hy, g.up.idx.2 x (by omega), e3, e4, Option.bind_eq_bind, Option.bind_some]
  obtain ⟨l, e, hl⟩ := join_spec ((g.up.sorted.row x).sub (e' := a) (Nat.le_refl _) (by omega) (by omega)) s2
  rw [e]
  simp only [Option.bind_some]
  have hf : ∀ t ∈ l, ∃ T z, c.midTri a t = some T ∧ T.mid = a ∧ TriAt c.upTail c.upHead T x z y := by
    rintro ⟨p, q, z⟩ hm
    obtain ⟨⟨h1, h2⟩, ⟨h3, h4⟩, h5, h6⟩ := (hl p q z).1 hm
    obtain ⟨m, xm', m1, m2, m3, m4⟩ := f2 q h3 h4
    have z2 : xm' = z := rd_congr_some m2 h6
    subst z2
    refine ⟨⟨p, a, m⟩, xm', ?_, rfl, ⟨?_, h5, hx, hy, m3, m4⟩⟩
    · simp only [Cch.midTri, Cch.downUp, m1, Option.bind_eq_bind, Option.bind_some]
    · exact (cLt_range hs).2 ⟨h1, by show p < _; omega⟩
  obtain ⟨r, er, _, _, hr⟩ := mapM_spec (f := c.midTri a) (l := l) (fun t ht => by
    obtain ⟨T, _, h, _⟩ := hf t ht; exact ⟨T, h⟩)
  refine ⟨r, er, ?_⟩
  intro T
  rw [hr]
  constructor
  · rintro ⟨t, ht, e⟩
    obtain ⟨T', z, h1, h2, h3⟩ := hf t ht
    rw [h1] at e
    cases e
    exact ⟨h2, z, h3⟩
  · rintro ⟨ht, z, hT⟩
    have r1 := (cLt_range hs).1 hT.bt
    have hzy := (g.up.up z y ⟨T.top, hT.tt, hT.th⟩).1
    obtain ⟨d2, b1, b2, b3, b4⟩ := f2' T.top z hT.tt hT.th
    have hlt : T.bottom < a := by
      rcases Nat.lt_or_ge T.bottom a with h | h
      · exact h
      · exfalso
        rcases Nat.lt_or_eq_of_le h with h | h
        · rcases g.up.sorted.2 _ _ _ _ _ _ h hx hT.bt hy hT.bh with h' | ⟨_, h'⟩ <;> omega
        · have e1 := hT.bh
          rw [← h] at e1
          have := rd_congr_some e1 hy
          omega
    refine ⟨(T.bottom, d2, z), (hl _ d2 z).2 ⟨⟨r1.1, hlt⟩, ⟨b1, b2⟩, hT.bh, b4⟩, ?_⟩
    simp only [Cch.midTri, Cch.downUp, b3, Option.bind_eq_bind, Option.bind_some]
    cases T; simp_all

end Cch
end RK
