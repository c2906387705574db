import Verif.Proof.CchHalf
import Verif.Proof.CchPartial
import Verif.Proof.ChOk
/-! Unpacking the arcs of a customized hierarchy. -/
namespace RK
open Spec BitVector

theorem scanExtra_spec {S : Nat → Prop} {w extra : List Nat} {v : Nat} (hS : ∀ i, S i → i < w.length) :
    ∀ (k lo : Nat), (∀ j, lo ≤ j → j < lo + k → ∃ i, rd extra j = some i ∧ S i) →
      (∃ j i, lo ≤ j ∧ j < lo + k ∧ rd extra j = some i ∧ rd w i = some v) →
      ∃ e, scanExtra w extra v k lo = some e ∧ S e ∧ rd w e = some v
  | 0, lo, _, ⟨j, _, h1, h2, _⟩ => by omega
  | k + 1, lo, hall, ⟨j, i, h1, h2, h3, h4⟩ => by
    obtain ⟨e, he, hSe⟩ := hall lo (Nat.le_refl _) (by omega)
    obtain ⟨x, hx⟩ := rd_isSome (v := w) (hS e hSe)
    unfold scanExtra
    simp only [he, hx, Option.bind_eq_bind, Option.bind_some]
    by_cases hvx : v = x
    · rw [if_pos hvx]
      exact ⟨e, rfl, hSe, by rw [hvx]; exact hx⟩
    · rw [if_neg hvx]
      refine scanExtra_spec hS k (lo + 1) (fun j q1 q2 => hall j (by omega) (by omega)) ⟨j, i, ?_, by omega, h3, h4⟩
      by_cases hj : j = lo
      · subst hj
        have := rd_congr_some h3 he
        subst this
        exact absurd (rd_congr_some h4 hx) hvx
      · omega

theorem originalArc_spec {c : Cch} {S : Nat → Nat → Prop} {HB EB : List Bool} {first fo extra w val : List Nat}
    (r1 : c.hasInput.Rep HB) (l1 : HB.length = c.upHead.length) (k1 : c.hasInputMap.Ok HB)
    (r2 : c.hasExtra.Rep EB) (l2 : EB.length = c.upHead.length) (k2 : c.hasExtraMap.Ok EB)
    (d : DirOk S HB EB first fo extra) (hS : ∀ i a, S i a → i < w.length) {a v : Nat} (ha : a < c.upHead.length)
    (hv : rd val a = some v) (hex : ∃ i, S i a ∧ rd w i = some v) :
    ∃ e, originalArc c w val first fo extra a = some e ∧ S e a ∧ rd w e = some v := by
  obtain ⟨i0, hS0, hw0⟩ := hex
  have hHB : at' HB a = true := by
    cases h : at' HB a with
    | true => rfl
    | false => exact absurd hS0 (d.none_ a h i0)
  obtain ⟨e, he, hc⟩ := d.first_ a hHB
  rcases hc with ⟨_, h⟩ | ⟨hne, hSe⟩
  · exact absurd hS0 (h i0)
  obtain ⟨x, hx⟩ := rd_isSome (v := w) (hS e a hSe)
  unfold originalArc
  rw [r1.isSet (by omega), hHB]
  simp only [Option.bind_eq_bind, Option.bind_some, if_true, k1.toLocal hHB, he, if_pos hne, hv, hx]
  by_cases hvx : v = x
  · rw [if_pos hvx]
    exact ⟨e, rfl, hSe, by rw [hvx]; exact hx⟩
  · rw [if_neg hvx]
    rcases d.all a i0 hS0 with h | ⟨hEB, lo, hi, j, j1, j2, j3, j4, j5⟩
    · have := rd_congr_some h he
      subst this
      exact absurd (rd_congr_some hw0 hx) hvx
    · obtain ⟨lo', hi', q1, q2, q3, q4, q5⟩ := d.range a hEB
      have h1 := rd_congr_some j1 q1
      have h2 := rd_congr_some j2 q2
      subst h1 h2
      rw [r2.isSet (by omega), hEB]
      simp only [Option.bind_some, if_true, k2.toLocal hEB, j1, j2]
      exact scanExtra_spec (S := fun i => S i a) (fun i hi => hS i a hi) (hi - lo) lo
        (fun k p1 p2 => q5 k p1 (by omega)) ⟨j, i0, j3, by omega, j5, hw0⟩

/-- A customized hierarchy: `rt`, `rh`, `w` are the input arcs by rank. -/
structure Customized (n : Nat) (rt rh w : List Nat) (c : Cch) (m : Metric) (U : List Bool) (f b : Nat → Nat) : Prop where
  ok : CchOk n rt rh c U
  small : n ≤ invalidId
  wlen : w.length = rt.length
  size : rt.length ≤ invalidId
  is : MetricIs m c.upTail.length f b
  cus : CusInv c.upTail c.upHead (listArcs rt rh w) (fun _ => True) f b

/-- Segments that form a walk, by rank. -/
inductive SegWalk (on : CchHandle) (A : ArcRel) : Nat → List Segment → Nat → Nat → Prop
  | nil (x : Nat) : SegWalk on A x [] x 0
  | cons {s : Segment} {i z y w l : Nat} {segs : List Segment} : segmentArc on s = some i → A i s.node z w →
      SegWalk on A z segs y l → SegWalk on A s.node (s :: segs) y (w + l)

theorem SegWalk.append {on : CchHandle} {A : ArcRel} {x y z l l' : Nat} {p q : List Segment} (h : SegWalk on A x p y l)
    (h' : SegWalk on A y q z l') : SegWalk on A x (p ++ q) z (l + l') := by
  induction h with
  | nil x => simpa using h'
  | cons h1 h2 _ ih => rw [List.cons_append, Nat.add_assoc]; exact .cons h1 h2 (ih h')

theorem firstFit_spec {m : Metric} {isF : Bool} : ∀ {l : List (Tri × Nat)}, (∀ t ∈ l, ∃ r, triFits m isF t.1 = some r) →
    (firstFit m isF l = some none ∧ ∀ t ∈ l, triFits m isF t.1 = some false) ∨
      ∃ t ∈ l, firstFit m isF l = some (some t) ∧ triFits m isF t.1 = some true
  | [], _ => Or.inl ⟨rfl, by simp⟩
  | t :: l, h => by
    obtain ⟨r, hr⟩ := h t (by simp)
    unfold firstFit
    simp only [hr, Option.bind_eq_bind, Option.bind_some]
    cases r with
    | true => exact Or.inr ⟨t, by simp, by simp, hr⟩
    | false =>
      simp only [Bool.false_eq_true, if_false]
      rcases firstFit_spec (l := l) (fun t ht => h t (by simp [ht])) with ⟨h1, h2⟩ | ⟨t', h1, h2, h3⟩
      · refine Or.inl ⟨h1, ?_⟩
        intro t' ht'
        rcases List.mem_cons.1 ht' with rfl | ht'
        · exact hr
        · exact h2 t' ht'
      · exact Or.inr ⟨t', by simp [h1], h2, h3⟩

namespace Customized
variable {n : Nat} {rt rh : List Nat} {U : List Bool} {f b : Nat → Nat} {on : CchHandle}

/-- The code that recovers an input arc. -/
theorem segF (h : Customized n rt rh on.inputWeight on.cch on.metric U f b) {a x y : Nat} (hx : rd on.cch.upTail a = some x)
    (hy : rd on.cch.upHead a = some y) (hex : ∃ i, listArcs rt rh on.inputWeight i x y (f a)) :
    SegWalk on (listArcs rt rh on.inputWeight) x [⟨x, a, true⟩] y (f a) := by
  obtain ⟨HB, EB, r1, l1, k1, r2, l2, k2, dF, dB⟩ := h.ok.back.ok
  have hS : ∀ i a, InputOf on.cch.inputToCch U true i a → i < on.inputWeight.length := fun i a hS => by
    have := rd_some_lt hS.1; have := h.ok.map.len; have := h.wlen; omega
  obtain ⟨i, q1, q2, q3⟩ := hex
  obtain ⟨e, he, hSe, hwe⟩ := originalArc_spec r1 l1 k1 r2 l2 k2 dF hS (rd_some_lt hy) (h.is.fwd a (rd_some_lt hx))
    ⟨i, (h.ok.inputOf hx hy i).1.2 ⟨q1, q2⟩, q3⟩
  obtain ⟨g1, g2⟩ := (h.ok.inputOf hx hy e).1.1 hSe
  have hlt := rd_some_lt g1
  have hne : decide (e ≠ invalidId) = true := by have := h.size; simp; omega
  have hseg : segmentArc on ⟨x, a, true⟩ = some e := by
    unfold segmentArc cchUnpackOriginal
    simp only [if_true, hx, he, hne, decide_true, check_true, Option.bind_eq_bind, Option.bind_some]
  exact SegWalk.cons (s := ⟨x, a, true⟩) hseg (z := y) ⟨g1, g2, hwe⟩ (.nil y)

theorem segB (h : Customized n rt rh on.inputWeight on.cch on.metric U f b) {a x y : Nat} (hx : rd on.cch.upTail a = some x)
    (hy : rd on.cch.upHead a = some y) (hex : ∃ i, listArcs rt rh on.inputWeight i y x (b a)) :
    SegWalk on (listArcs rt rh on.inputWeight) y [⟨y, a, false⟩] x (b a) := by
  obtain ⟨HB, EB, r1, l1, k1, r2, l2, k2, dF, dB⟩ := h.ok.back.ok
  have hS : ∀ i a, InputOf on.cch.inputToCch U false i a → i < on.inputWeight.length := fun i a hS => by
    have := rd_some_lt hS.1; have := h.ok.map.len; have := h.wlen; omega
  obtain ⟨i, q1, q2, q3⟩ := hex
  obtain ⟨e, he, hSe, hwe⟩ := originalArc_spec r1 l1 k1 r2 l2 k2 dB hS (rd_some_lt hy) (h.is.bwd a (rd_some_lt hx))
    ⟨i, (h.ok.inputOf hx hy i).2.2 ⟨q1, q2⟩, q3⟩
  obtain ⟨g1, g2⟩ := (h.ok.inputOf hx hy e).2.1 hSe
  have hlt := rd_some_lt g1
  have hne : decide (e ≠ invalidId) = true := by have := h.size; simp; omega
  have hseg : segmentArc on ⟨y, a, false⟩ = some e := by
    unfold segmentArc cchUnpackOriginal
    simp only [Bool.false_eq_true, if_false, hy, he, hne, decide_true, check_true, Option.bind_eq_bind, Option.bind_some]
  exact SegWalk.cons (s := ⟨y, a, false⟩) hseg (z := x) ⟨g1, g2, hwe⟩ (.nil x)

theorem unpackArc_spec (h : Customized n rt rh on.inputWeight on.cch on.metric U f b) : ∀ (fuel a x y : Nat), x < fuel →
    rd on.cch.upTail a = some x → rd on.cch.upHead a = some y →
    (f a < infWeight → ∃ s, unpackArc on.cch on.metric fuel true x y a = some s ∧
      SegWalk on (listArcs rt rh on.inputWeight) x s y (f a)) ∧
    (b a < infWeight → ∃ s, unpackArc on.cch on.metric fuel false x y a = some s ∧
      SegWalk on (listArcs rt rh on.inputWeight) y s x (b a))
  | 0, _, x, _, hf, _, _ => absurd hf (Nat.not_lt_zero x)
  | fuel + 1, a, x, y, hf, hx, hy => by
    have hcons := cons_of_cinv h.ok.graph.up h.cus (h.ok.keep' h.wlen) a x y hx hy
    obtain ⟨l, el, hl⟩ := h.ok.graph.lowerTriangles_spec hx hy
    have htri : ∀ t ∈ l, TriAt on.cch.upTail on.cch.upHead t.1 t.2 x y ∧ t.1.top = a := fun t ht =>
      ⟨((hl t.1 t.2).1 ht).2, ((hl t.1 t.2).1 ht).1⟩
    have hle := h.cus.le
    have fitF : ∀ t ∈ l, triFits on.metric true t.1 = some (decide (f a = b t.1.bottom + f t.1.mid)) := by
      intro t ht
      obtain ⟨hT, hta⟩ := htri t ht
      have n1 := rd_some_lt hT.bt
      have n2 := rd_some_lt hT.mt
      unfold triFits
      simp only [if_true, hta, h.is.fwd a (rd_some_lt hx), h.is.bwd _ n1, h.is.fwd _ n2, Option.bind_eq_bind, Option.bind_some,
        add32_le (hle _ n1).2 (hle _ n2).1]
    have fitB : ∀ t ∈ l, triFits on.metric false t.1 = some (decide (b a = f t.1.bottom + b t.1.mid)) := by
      intro t ht
      obtain ⟨hT, hta⟩ := htri t ht
      have n1 := rd_some_lt hT.bt
      have n2 := rd_some_lt hT.mt
      unfold triFits
      simp only [Bool.false_eq_true, if_false, hta, h.is.bwd a (rd_some_lt hx), h.is.fwd _ n1, h.is.bwd _ n2, Option.bind_eq_bind,
        Option.bind_some, add32_le (hle _ n1).1 (hle _ n2).2]
    have lower : ∀ t ∈ l, t.2 < fuel := by
      intro t ht
      obtain ⟨hT, _⟩ := htri t ht
      have := (h.ok.graph.up.up _ _ ⟨_, hT.bt, hT.bh⟩).1
      omega
    constructor
    · intro hlt
      rcases firstFit_spec (m := on.metric) (isF := true) (l := l) (fun t ht => ⟨_, fitF t ht⟩) with ⟨e1, hno⟩ | ⟨⟨T, z⟩, ht, e1, hfit⟩
      · refine ⟨[⟨x, a, true⟩], ?_, ?_⟩
        · unfold unpackArc
          simp only [hx, hy, decide_true, check_true, el, e1, Option.bind_eq_bind, Option.bind_some, if_true]
        · apply h.segF hx hy
          rcases hcons.1.2.2 with hinf | hc | ⟨T, z, g1, g2, g3⟩
          · omega
          · exact hc
          · have hm := (hl T z).2 ⟨g1, g2⟩
            have := (hno _ hm).symm.trans (fitF _ hm)
            simp only [Option.some.injEq, Bool.false_eq] at this
            simp only [decide_eq_false_iff_not] at this
            exact absurd g3 this
      · rw [fitF _ ht] at hfit
        have hsum : f a = b T.bottom + f T.mid := by simpa using hfit
        obtain ⟨hT, _⟩ := htri _ ht
        have hz : z < fuel := lower _ ht
        obtain ⟨_, u1⟩ := unpackArc_spec h fuel T.bottom z x hz hT.bt hT.bh
        obtain ⟨u2, _⟩ := unpackArc_spec h fuel T.mid z y hz hT.mt hT.mh
        obtain ⟨s1, e2, w1⟩ := u1 (by omega)
        obtain ⟨s2, e3, w2⟩ := u2 (by omega)
        refine ⟨s1 ++ s2, ?_, ?_⟩
        · unfold unpackArc
          simp only [hx, hy, decide_true, check_true, el, e1, e2, e3, Option.bind_eq_bind, Option.bind_some, if_true]
        · rw [hsum]; exact w1.append w2
    · intro hlt
      rcases firstFit_spec (m := on.metric) (isF := false) (l := l) (fun t ht => ⟨_, fitB t ht⟩) with ⟨e1, hno⟩ | ⟨⟨T, z⟩, ht, e1, hfit⟩
      · refine ⟨[⟨y, a, false⟩], ?_, ?_⟩
        · unfold unpackArc
          simp only [hx, hy, decide_true, check_true, el, e1, Option.bind_eq_bind, Option.bind_some, Bool.false_eq_true, if_false]
        · apply h.segB hx hy
          rcases hcons.2.2.2 with hinf | hc | ⟨T, z, g1, g2, g3⟩
          · omega
          · exact hc
          · have hm := (hl T z).2 ⟨g1, g2⟩
            have := (hno _ hm).symm.trans (fitB _ hm)
            simp only [Option.some.injEq, Bool.false_eq] at this
            simp only [decide_eq_false_iff_not] at this
            exact absurd g3 this
      · rw [fitB _ ht] at hfit
        have hsum : b a = f T.bottom + b T.mid := by simpa using hfit
        obtain ⟨hT, _⟩ := htri _ ht
        have hz : z < fuel := lower _ ht
        obtain ⟨u1, _⟩ := unpackArc_spec h fuel T.bottom z x hz hT.bt hT.bh
        obtain ⟨_, u2⟩ := unpackArc_spec h fuel T.mid z y hz hT.mt hT.mh
        obtain ⟨s1, e2, w1⟩ := u1 (by omega)
        obtain ⟨s2, e3, w2⟩ := u2 (by omega)
        refine ⟨s2 ++ s1, ?_, ?_⟩
        · unfold unpackArc
          simp only [hx, hy, decide_true, check_true, el, e1, e2, e3, Option.bind_eq_bind, Option.bind_some, Bool.false_eq_true, if_false]
        · rw [hsum, Nat.add_comm]; exact w2.append w1

end Customized

/-! ### Paths of the query -/

theorem UpOk.csr {n : Nat} {fo head tail : List Nat} (u : UpOk n fo head tail) : IsCSR n fo head ∧
    ∀ a x, OutArc fo x a ↔ rd tail a = some x := by
  have hidx := u.idx
  have hsort := u.sorted.pairwise
  have hrd : ∀ {x v : Nat}, fo[x]? = some v → x ≤ n ∧ v = cLt tail x := by
    intro x v hv
    have hx : x < fo.length := rd_some_lt (v := fo) hv
    have := hidx.1
    refine ⟨by omega, ?_⟩
    exact rd_congr_some hv (hidx.2 x (by omega))
  refine ⟨⟨hidx.1, ?_, ?_, ?_, ?_⟩, ?_⟩
  · intro x b e hb he
    rw [(hrd hb).2, (hrd he).2]
    exact cLt_mono _ (by omega)
  · have := hidx.2 0 (by omega)
    rw [cLt_zero] at this
    exact this
  · have := hidx.2 n (Nat.le_refl _)
    rw [cLt_all u.tail_lt, u.sorted.1] at this
    exact this
  · intro a y hy
    exact u.head_lt y (mem_iff_rd.2 ⟨a, hy⟩)
  · intro a x
    rw [cLt_range hsort]
    constructor
    · rintro ⟨b, e, hb, he, h1, h2⟩
      rw [(hrd hb).2] at h1
      rw [(hrd he).2] at h2
      exact ⟨h1, h2⟩
    · rintro ⟨h1, h2⟩
      have ha : a < tail.length := by have := cLt_le_length tail (x + 1); omega
      have hx : rd tail a = some x := (cLt_range hsort).2 ⟨h1, h2⟩
      have := u.tail_lt x (mem_iff_rd.2 ⟨a, hx⟩)
      exact ⟨_, _, hidx.2 x (by omega), hidx.2 (x + 1) (by omega), h1, h2⟩

theorem UpOk.find {n : Nat} {fo head tail : List Nat} (u : UpOk n fo head tail) (hsz : tail.length ≤ invalidId) {a x y : Nat}
    (hx : rd tail a = some x) (hy : rd head a = some y) : findArcGivenSortedHead fo head x y = some a := by
  obtain ⟨hc, hout⟩ := u.csr
  obtain ⟨r, e, h1, h2⟩ := findSorted hc (by
    intro x a b p q h1 h2 hab hp hq
    rcases Nat.lt_or_eq_of_le hab with hlt | rfl
    · rcases u.sorted.2 a b x x p q hlt ((hout a x).1 h1) ((hout b x).1 h2) hp hq with h | ⟨_, h⟩
      · omega
      · omega
    · exact Nat.le_of_eq (rd_congr_some hp hq)) (by rw [← u.sorted.1]; exact hsz) ((hout a x).2 hx) hy
  rw [e]
  have h1' := (hout r x).1 h1
  congr 1
  rcases Nat.lt_trichotomy r a with hlt | heq | hlt
  · rcases u.sorted.2 r a x x y y hlt h1' hx h2 hy with h | ⟨_, h⟩ <;> omega
  · exact heq
  · rcases u.sorted.2 a r x x y y hlt hx h1' hy h2 with h | ⟨_, h⟩ <;> omega

namespace Customized
variable {n : Nat} {rt rh : List Nat} {U : List Bool} {f b : Nat → Nat} {on : CchHandle}

theorem unpackUp_spec (h : Customized n rt rh on.inputWeight on.cch on.metric U f b) {S : List (Nat × Nat)} {D P : Nat → Nat}
    {x z : Nat} {l : List Nat} (hc : UpChain on.cch.upTail on.cch.upHead f S D P x l z) : D x < infWeight → x < n →
    ∃ s len, unpackUp on.cch on.metric l = some s ∧ SegWalk on (listArcs rt rh on.inputWeight) z s x len ∧
      D x = D z + len ∧ (z, D z) ∈ S ∧ P z = invalidId ∧ z < n := by
  induction hc with
  | @src x h1 h2 => intro _ hx; exact ⟨[], 0, rfl, .nil x, rfl, h2, h1, hx⟩
  | @step x p a z l h1 h2 h3 h4 h5 hc ih =>
    intro hlt hx
    obtain ⟨s, len, e1, w1, g1, g2, g3, g4⟩ := ih (by omega) (by omega)
    have hpn : p < on.cch.rank.length + 1 := by have := h.ok.nodes; omega
    obtain ⟨u, _⟩ := h.unpackArc_spec (on.cch.rank.length + 1) a p x hpn h3 h4
    obtain ⟨s2, e2, w2⟩ := u (by omega)
    refine ⟨s ++ s2, len + f a, ?_, w1.append w2, by omega, g2, g3, g4⟩
    have hfind := h.ok.graph.up.find h.ok.small h3 h4
    obtain ⟨l', rfl⟩ : ∃ l', l = p :: l' := by cases hc <;> exact ⟨_, rfl⟩
    unfold unpackUp
    simp only [e1, hfind, e2, Option.bind_eq_bind, Option.bind_some]

theorem unpackDown_spec (h : Customized n rt rh on.inputWeight on.cch on.metric U f b) {S : List (Nat × Nat)} {D P : Nat → Nat}
    {x z : Nat} {l : List Nat} (hc : UpChain on.cch.upTail on.cch.upHead b S D P x l z) : D x < infWeight → x < n →
    ∃ s len, unpackDown on.cch on.metric l = some s ∧ SegWalk on (listArcs rt rh on.inputWeight) x s z len ∧
      D x = D z + len ∧ (z, D z) ∈ S ∧ P z = invalidId ∧ z < n := by
  induction hc with
  | @src x h1 h2 => intro _ hx; exact ⟨[], 0, rfl, .nil x, rfl, h2, h1, hx⟩
  | @step x p a z l h1 h2 h3 h4 h5 hc ih =>
    intro hlt hx
    obtain ⟨s, len, e1, w1, g1, g2, g3, g4⟩ := ih (by omega) (by omega)
    have hpn : p < on.cch.rank.length + 1 := by have := h.ok.nodes; omega
    obtain ⟨_, u⟩ := h.unpackArc_spec (on.cch.rank.length + 1) a p x hpn h3 h4
    obtain ⟨s2, e2, w2⟩ := u (by omega)
    refine ⟨s2 ++ s, b a + len, ?_, w2.append w1, by omega, g2, g3, g4⟩
    have hfind := h.ok.graph.up.find h.ok.small h3 h4
    obtain ⟨l', rfl⟩ : ∃ l', l = p :: l' := by cases hc <;> exact ⟨_, rfl⟩
    unfold unpackDown
    simp only [e1, hfind, e2, Option.bind_eq_bind, Option.bind_some]

/-! ### The hierarchy as a whole -/

theorem head_lt (h : Customized n rt rh on.inputWeight on.cch on.metric U f b) {x y : Nat} (hf : Fill rt rh x y) : y < n := by
  have key : ∀ {I : Nat → Prop} {x y : Nat}, InnerPath (Sym rt rh) I x y → y < n := by
    intro I x y hp
    induction hp with
    | edge he =>
      rcases he with ⟨i, h1, h2⟩ | ⟨i, h1, h2⟩
      · exact h.ok.head_lt _ (mem_iff_rd.2 ⟨i, h2⟩)
      · exact h.ok.tail_lt _ (mem_iff_rd.2 ⟨i, h1⟩)
    | step _ _ _ ih => exact ih
  exact key hf.2

theorem tree (h : Customized n rt rh on.inputWeight on.cch on.metric U f b) : TreeOk n on.cch := by
  refine ⟨h.ok.parentLen, h.small, ?_⟩
  intro x hx
  obtain ⟨p, hp, hc⟩ := h.ok.parent x hx
  refine ⟨p, hp, ?_⟩
  rcases hc with ⟨h1, _⟩ | ⟨h1, _⟩
  · have := h.small
    exact ⟨by omega, Or.inr h1⟩
  · exact ⟨h1.1, Or.inl (h.head_lt h1)⟩

end Customized
end RK
