import Verif.Proof.PerfectOk
import Verif.Proof.CchFilter
/-! Helper lemmas: the hierarchy built from the kept arcs. -/
namespace RK
open Spec BitVector

theorem scanExtra_none {S : Nat → Prop} {w extra : List Nat} {v : Nat} (hS : ∀ i, S i → i < w.length) :
    ∀ (k lo : Nat), (∀ j, lo ≤ j → j < lo + k → ∃ i, rd extra j = some i ∧ S i) → (∀ i, S i → rd w i ≠ some v) →
      scanExtra w extra v k lo = some invalidId
  | 0, _, _, _ => rfl
  | k + 1, lo, hall, hno => by
    obtain ⟨e, he, hSe⟩ := hall lo (Nat.le_refl _) (by omega)
    obtain ⟨x, hx⟩ := rd_isSome (v := w) (hS e hSe)
    unfold scanExtra
    simp only [he, hx, Option.bind_eq_bind, Option.bind_some]
    rw [if_neg (fun h => hno e hSe (by rw [h]; exact hx))]
    exact scanExtra_none hS k (lo + 1) (fun j q1 q2 => hall j (by omega) (by omega)) hno

/-- If no input arc has the weight then none is found. -/
theorem originalArc_none {c : Cch} {S : Nat → Nat → Prop} {HB EB : List Bool} {first fo extra w val : List Nat}
    (r1 : c.hasInput.Rep HB) (l1 : HB.length = c.upHead.length) (k1 : c.hasInputMap.Ok HB)
    (r2 : c.hasExtra.Rep EB) (l2 : EB.length = c.upHead.length) (k2 : c.hasExtraMap.Ok EB)
    (d : DirOk S HB EB first fo extra) (hS : ∀ i a, S i a → i < w.length) {a v : Nat} (ha : a < c.upHead.length)
    (hv : rd val a = some v) (hno : ∀ i, S i a → rd w i ≠ some v) :
    originalArc c w val first fo extra a = some invalidId := by
  unfold originalArc
  rw [r1.isSet (by omega)]
  simp only [Option.bind_eq_bind, Option.bind_some]
  cases hHB : at' HB a with
  | false => rw [if_neg (by simp)]
  | true =>
    simp only [if_true]
    obtain ⟨e, he, hc⟩ := d.first_ a hHB
    simp only [k1.toLocal hHB, he, Option.bind_some]
    rcases hc with ⟨h, _⟩ | ⟨hne, hSe⟩
    · rw [if_neg (by simpa using h)]
    · obtain ⟨x, hx⟩ := rd_isSome (v := w) (hS e a hSe)
      rw [if_pos hne]
      simp only [hv, hx, Option.bind_some]
      rw [if_neg (fun h => hno e hSe (by rw [h]; exact hx)), r2.isSet (by omega)]
      simp only [Option.bind_some]
      cases hEB : at' EB a with
      | false => rw [if_neg (by simp)]
      | true =>
        obtain ⟨lo, hi, q1, q2, q3, q4, q5⟩ := d.range a hEB
        simp only [if_true, k2.toLocal hEB, q1, q2, Option.bind_some]
        exact scanExtra_none (S := fun i => S i a) (fun i hi => hS i a hi) (hi - lo) lo (fun k p1 p2 => q5 k p1 (by omega)) hno

/-- The finished weights and marks. -/
structure Perf (n : Nat) (rt rh w : List Nat) (c : Cch) (U : List Bool) (m : Metric) (k : PerfectMaps) (BF BB : List Bool)
    (f0 b0 f b : Nat → Nat) : Prop where
  ok : CchOk n rt rh c U
  order : c.order.length = n
  wlen : w.length = rt.length
  size : rt.length ≤ invalidId
  cus : CusInv c.upTail c.upHead (listArcs rt rh w) (fun _ => True) f0 b0
  fin : PEnd n c.upFirstOut c.upTail c.upHead (listArcs rt rh w) f0 b0 f b
  is : MetricIs m c.upTail.length f b
  repF : k.keepF.Rep BF
  repB : k.keepB.Rep BB
  lenF : BF.length = c.upTail.length
  lenB : BB.length = c.upTail.length
  bitF : ∀ a, a < c.upTail.length → at' BF a = decide (f a = f0 a ∧ f0 a < infWeight)
  bitB : ∀ a, a < c.upTail.length → at' BB a = decide (b a = b0 a ∧ b0 a < infWeight)
  mapF : k.mapF.Ok BF
  mapB : k.mapB.Ok BB

/-- What the unpacking vectors have to say about the kept arc `a`. -/
def Good (rt rh w : List Nat) (c : Cch) (BF BB : List Bool) (f b : Nat → Nat) : Bool → Nat → Bool → Nat → Nat → Prop
  | true, a, o, i, j => ∃ x y, rd c.upTail a = some x ∧ rd c.upHead a = some y ∧
      ((o = true ∧ listArcs rt rh w i x y (f a) ∧ rd c.order y = some j) ∨
       (o = false ∧ ∃ T z, TriAt c.upTail c.upHead T z x y ∧ T.top = a ∧ at' BB T.bottom = true ∧ at' BF T.mid = true ∧
         i = rk (at' BB) T.bottom ∧ j = rk (at' BF) T.mid ∧ b T.bottom + f T.mid = f a))
  | false, a, o, i, j => ∃ x y, rd c.upTail a = some x ∧ rd c.upHead a = some y ∧
      ((o = true ∧ listArcs rt rh w i y x (b a) ∧ rd c.order x = some j) ∨
       (o = false ∧ ∃ T z, TriAt c.upTail c.upHead T z x y ∧ T.top = a ∧ at' BB T.mid = true ∧ at' BF T.bottom = true ∧
         i = rk (at' BB) T.mid ∧ j = rk (at' BF) T.bottom ∧ b T.mid + f T.bottom = b a))

theorem perfectFirst_spec {m : Metric} {k : PerfectMaps} {isF : Bool} : ∀ {l : List (Tri × Nat)},
    (∀ t ∈ l, ∃ r, perfectFits m k isF t.1 = some r) → (∃ t ∈ l, perfectFits m k isF t.1 = some true) →
    ∃ t ∈ l, perfectFirst m k isF l = some (some t.1) ∧ perfectFits m k isF t.1 = some true
  | [], _, ⟨t, h, _⟩ => by simp at h
  | t :: l, hall, ⟨t', h, h'⟩ => by
    obtain ⟨r, hr⟩ := hall t (by simp)
    unfold perfectFirst
    simp only [hr, Option.bind_eq_bind, Option.bind_some]
    cases r with
    | true => exact ⟨t, by simp, rfl, hr⟩
    | false =>
      rcases List.mem_cons.1 h with rfl | h
      · rw [hr] at h'; simp at h'
      · obtain ⟨t2, g1, g2, g3⟩ := perfectFirst_spec (fun t ht => hall t (by simp [ht])) ⟨t', h, h'⟩
        exact ⟨t2, by simp [g1], by simpa using g2, g3⟩

namespace Perf
variable {n : Nat} {rt rh w : List Nat} {c : Cch} {U : List Bool} {m : Metric} {k : PerfectMaps} {BF BB : List Bool}
  {f0 b0 f b : Nat → Nat}

theorem keptF (h : Perf n rt rh w c U m k BF BB f0 b0 f b) {a : Nat} (ha : at' BF a = true) :
    a < c.upTail.length ∧ f a = f0 a ∧ f0 a < infWeight := by
  have hl := at_eq_true_lt ha
  rw [h.lenF] at hl
  have := h.bitF a hl
  rw [ha] at this
  exact ⟨hl, by simpa using this.symm⟩

theorem keptB (h : Perf n rt rh w c U m k BF BB f0 b0 f b) {a : Nat} (ha : at' BB a = true) :
    a < c.upTail.length ∧ b a = b0 a ∧ b0 a < infWeight := by
  have hl := at_eq_true_lt ha
  rw [h.lenB] at hl
  have := h.bitB a hl
  rw [ha] at this
  exact ⟨hl, by simpa using this.symm⟩

theorem setF (h : Perf n rt rh w c U m k BF BB f0 b0 f b) {a : Nat} (ha : a < c.upTail.length) (h1 : f a = f0 a)
    (h2 : f0 a < infWeight) : at' BF a = true := by rw [h.bitF a ha]; simp [h1, h2]

theorem setB (h : Perf n rt rh w c U m k BF BB f0 b0 f b) {a : Nat} (ha : a < c.upTail.length) (h1 : b a = b0 a)
    (h2 : b0 a < infWeight) : at' BB a = true := by rw [h.bitB a ha]; simp [h1, h2]

/-- The tests of a triangle. -/
theorem fitsF (h : Perf n rt rh w c U m k BF BB f0 b0 f b) {T : Tri} {x y z : Nat} (hT : TriAt c.upTail c.upHead T z x y) :
    perfectFits m k true T = some (at' BB T.bottom && (at' BF T.mid && decide (b T.bottom + f T.mid = f T.top))) := by
  have hinf : infWeight = 2147483647 := rfl
  have i1 := rd_some_lt hT.bt
  have i2 := rd_some_lt hT.mt
  have i3 := rd_some_lt hT.tt
  unfold perfectFits
  simp only [if_true, h.repB.isSet (x := T.bottom) (by rw [h.lenB]; exact i1), h.repF.isSet (x := T.mid) (by rw [h.lenF]; exact i2),
    h.is.bwd _ i1, h.is.fwd _ i2, h.is.fwd _ i3, Option.bind_eq_bind, Option.bind_some]
  cases h1 : at' BB T.bottom <;> simp only [Bool.false_eq_true, if_false, if_true, Bool.false_and, Bool.true_and]
  cases h2 : at' BF T.mid <;> simp only [Bool.false_eq_true, if_false, if_true, Bool.false_and, Bool.true_and]
  have := h.keptB h1
  have := h.keptF h2
  have : add32 (b T.bottom) (f T.mid) = b T.bottom + f T.mid := by unfold add32 u32; omega
  rw [this]

theorem fitsB (h : Perf n rt rh w c U m k BF BB f0 b0 f b) {T : Tri} {x y z : Nat} (hT : TriAt c.upTail c.upHead T z x y) :
    perfectFits m k false T = some (at' BB T.mid && (at' BF T.bottom && decide (b T.mid + f T.bottom = b T.top))) := by
  have hinf : infWeight = 2147483647 := rfl
  have i1 := rd_some_lt hT.bt
  have i2 := rd_some_lt hT.mt
  have i3 := rd_some_lt hT.tt
  unfold perfectFits
  simp only [Bool.false_eq_true, if_false, h.repB.isSet (x := T.mid) (by rw [h.lenB]; exact i2),
    h.repF.isSet (x := T.bottom) (by rw [h.lenF]; exact i1),
    h.is.fwd _ i1, h.is.bwd _ i2, h.is.bwd _ i3, Option.bind_eq_bind, Option.bind_some]
  cases h1 : at' BB T.mid <;> simp only [Bool.false_eq_true, if_false, if_true, Bool.false_and, Bool.true_and]
  cases h2 : at' BF T.bottom <;> simp only [Bool.false_eq_true, if_false, if_true, Bool.false_and, Bool.true_and]
  have := h.keptB h1
  have := h.keptF h2
  have : add32 (b T.mid) (f T.bottom) = b T.mid + f T.bottom := by unfold add32 u32; omega
  rw [this]

/-- The input arc of a kept arc, or the message that there is none. -/
theorem origF (h : Perf n rt rh w c U m k BF BB f0 b0 f b) {a x y : Nat} (hx : rd c.upTail a = some x) (hy : rd c.upHead a = some y) :
    (∃ e, originalArc c w m.forward c.fwdInput c.firstExtraFwd c.extraFwd a = some e ∧ e ≠ invalidId ∧ listArcs rt rh w e x y (f a)) ∨
    (originalArc c w m.forward c.fwdInput c.firstExtraFwd c.extraFwd a = some invalidId ∧ ∀ i, ¬ listArcs rt rh w i x y (f a)) := by
  obtain ⟨HB, EB, r1, l1, k1, r2, l2, k2, dF, dB⟩ := h.ok.back.ok
  have hS : ∀ i a, InputOf c.inputToCch U true i a → i < w.length := fun i a hS => by
    have := rd_some_lt hS.1; have := h.ok.map.len; have := h.wlen; omega
  have hv := h.is.fwd a (rd_some_lt hx)
  by_cases hex : ∃ i, listArcs rt rh w i x y (f a)
  · left
    obtain ⟨i, q1, q2, q3⟩ := hex
    obtain ⟨e, he, hSe, hwe⟩ := originalArc_spec r1 l1 k1 r2 l2 k2 dF hS (rd_some_lt hy) hv ⟨i, (h.ok.inputOf hx hy i).1.2 ⟨q1, q2⟩, q3⟩
    obtain ⟨g1, g2⟩ := (h.ok.inputOf hx hy e).1.1 hSe
    have hlt := rd_some_lt g1
    have hsz := h.size
    exact ⟨e, he, by omega, g1, g2, hwe⟩
  · right
    have hno : ∀ i, ¬ listArcs rt rh w i x y (f a) := fun i hi => hex ⟨i, hi⟩
    refine ⟨originalArc_none r1 l1 k1 r2 l2 k2 dF hS (rd_some_lt hy) hv (fun i hi hw => ?_), hno⟩
    obtain ⟨g1, g2⟩ := (h.ok.inputOf hx hy i).1.1 hi
    exact hno i ⟨g1, g2, hw⟩

theorem origB (h : Perf n rt rh w c U m k BF BB f0 b0 f b) {a x y : Nat} (hx : rd c.upTail a = some x) (hy : rd c.upHead a = some y) :
    (∃ e, originalArc c w m.backward c.bwdInput c.firstExtraBwd c.extraBwd a = some e ∧ e ≠ invalidId ∧ listArcs rt rh w e y x (b a)) ∨
    (originalArc c w m.backward c.bwdInput c.firstExtraBwd c.extraBwd a = some invalidId ∧ ∀ i, ¬ listArcs rt rh w i y x (b a)) := by
  obtain ⟨HB, EB, r1, l1, k1, r2, l2, k2, dF, dB⟩ := h.ok.back.ok
  have hS : ∀ i a, InputOf c.inputToCch U false i a → i < w.length := fun i a hS => by
    have := rd_some_lt hS.1; have := h.ok.map.len; have := h.wlen; omega
  have hv := h.is.bwd a (rd_some_lt hx)
  by_cases hex : ∃ i, listArcs rt rh w i y x (b a)
  · left
    obtain ⟨i, q1, q2, q3⟩ := hex
    obtain ⟨e, he, hSe, hwe⟩ := originalArc_spec r1 l1 k1 r2 l2 k2 dB hS (rd_some_lt hy) hv ⟨i, (h.ok.inputOf hx hy i).2.2 ⟨q1, q2⟩, q3⟩
    obtain ⟨g1, g2⟩ := (h.ok.inputOf hx hy e).2.1 hSe
    have hlt := rd_some_lt g1
    have hsz := h.size
    exact ⟨e, he, by omega, g1, g2, hwe⟩
  · right
    have hno : ∀ i, ¬ listArcs rt rh w i y x (b a) := fun i hi => hex ⟨i, hi⟩
    refine ⟨originalArc_none r1 l1 k1 r2 l2 k2 dB hS (rd_some_lt hy) hv (fun i hi hw => ?_), hno⟩
    obtain ⟨g1, g2⟩ := (h.ok.inputOf hx hy i).2.1 hi
    exact hno i ⟨g1, g2, hw⟩

end Perf

theorem set_of_at {O : List Bool} {r : Nat} {v : Bool} (hr : r < O.length) (h : at' O r = v) : O.set r v = O := by
  apply List.ext_getElem?
  intro q
  rw [List.getElem?_set]
  split
  · rename_i e
    subst e
    unfold at' at h
    rw [List.getD_eq_getElem?_getD, List.getElem?_eq_getElem hr] at h
    rw [List.getElem?_eq_getElem hr]
    simpa using h.symm
  · rfl

/-- The marks of one direction. -/
def side (isF : Bool) (BF BB : List Bool) : List Bool := if isF then BF else BB

namespace Perf
variable {n : Nat} {rt rh w : List Nat} {c : Cch} {U : List Bool} {m : Metric} {k : PerfectMaps} {BF BB : List Bool}
  {f0 b0 f b : Nat → Nat}

theorem unpack_one (h : Perf n rt rh w c U m k BF BB f0 b0 f b) (asserts isF : Bool) {a K : Nat}
    (ha : at' (side isF BF BB) a = true) {s : ChSide} {O : List Bool} (hO : s.isOriginal.Rep O) (l0 : O.length = K)
    (l1 : s.first.length = K) (l2 : s.second.length = K) (hr : rk (at' (side isF BF BB)) a < K)
    (hof : at' O (rk (at' (side isF BF BB)) a) = false) :
    ∃ o i j bits, perfectUnpack asserts c w m k isF s a = some { s with
        first := s.first.set (rk (at' (side isF BF BB)) a) i
        second := s.second.set (rk (at' (side isF BF BB)) a) j
        isOriginal := bits } ∧
      bits.Rep (O.set (rk (at' (side isF BF BB)) a) o) ∧ Good rt rh w c BF BB f b isF a o i j := by
  have hinf : infWeight = 2147483647 := rfl
  have hlen := h.ok.graph.up.sorted.1
  have hsame := set_of_at (show rk (at' (side isF BF BB)) a < O.length by omega) hof
  generalize hgr : rk (at' (side isF BF BB)) a = r at *
  have ha' : a < c.upTail.length := by
    cases isF
    · exact (h.keptB ha).1
    · exact (h.keptF ha).1
  obtain ⟨x, hx⟩ := rd_isSome (v := c.upTail) ha'
  obtain ⟨y, hy⟩ := rd_isSome (v := c.upHead) (i := a) (by omega)
  obtain ⟨hxy, hyn⟩ := h.ok.graph.up.up x y ⟨a, hx, hy⟩
  obtain ⟨l, el, hl⟩ := h.ok.graph.lowerTriangles_spec hx hy
  have htri : ∀ t ∈ l, TriAt c.upTail c.upHead t.1 t.2 x y ∧ t.1.top = a := fun t ht =>
    ⟨((hl t.1 t.2).1 ht).2, ((hl t.1 t.2).1 ht).1⟩
  have hcons := cons_of_cinv h.ok.graph.up h.cus (h.ok.keep' h.wlen) a x y hx hy
  obtain ⟨bits, eb, rb⟩ := hO.set (x := r) (by omega)
  cases isF with
  | true =>
    have ha : at' BF a = true := ha
    have hgr : rk (at' BF) a = r := hgr
    have hk := h.keptF ha
    obtain ⟨j, hj⟩ := rd_isSome (v := c.order) (i := y) (by rw [h.order]; exact hyn)
    rcases h.origF hx hy with ⟨e, e1, e2, e3⟩ | ⟨e1, e2⟩
    · refine ⟨true, e, j, bits, ?_, rb, x, y, hx, hy, Or.inl ⟨rfl, e3, hj⟩⟩
      unfold perfectUnpack unpackInput
      simp only [if_true, h.repF.isSet (x := a) (by rw [h.lenF]; exact ha'), ha, h.mapF.toLocal ha, hgr, e1, if_pos e2, hy, hj, eb,
        wr_lt (v := s.first) (i := r) (by omega), wr_lt (v := s.second) (i := r) (by omega), Option.bind_eq_bind, Option.bind_some]
    · have hex : ∃ t ∈ l, perfectFits m k true t.1 = some true := by
        rcases hcons.1.2.2 with g | ⟨i, g⟩ | ⟨T, z, g1, g2, g3⟩
        · omega
        · exact absurd (by rw [hk.2.1]; exact g) (e2 i)
        · refine ⟨(T, z), (hl T z).2 ⟨g1, g2⟩, ?_⟩
          obtain ⟨q1, q2, q3⟩ := h.fin.lowerF g2 (by rw [g1]; exact hk.2) (by rw [g1]; exact g3)
          simp only
          rw [h.fitsF g2, h.setB (rd_some_lt g2.bt) q1.1 q1.2, h.setF (rd_some_lt g2.mt) q2.1 q2.2, decide_eq_true q3]
          rfl
      obtain ⟨t, ht, f1, f2⟩ := perfectFirst_spec (fun t ht => ⟨_, h.fitsF (htri t ht).1⟩) hex
      obtain ⟨hT, htop⟩ := htri t ht
      rw [h.fitsF hT] at f2
      simp only [Option.some.injEq, Bool.and_eq_true, decide_eq_true_eq] at f2
      obtain ⟨b1, b2, b3⟩ := f2
      refine ⟨false, rk (at' BB) t.1.bottom, rk (at' BF) t.1.mid, s.isOriginal, ?_, by rw [hsame]; exact hO, x, y, hx, hy,
        Or.inr ⟨rfl, t.1, t.2, hT, htop, b1, b2, rfl, rfl, by rw [b3, htop]⟩⟩
      unfold perfectUnpack perfectShortcut unpackParts
      simp only [if_true, h.repF.isSet (x := a) (by rw [h.lenF]; exact ha'), ha, h.mapF.toLocal ha, hgr, e1, hx, hy, el, f1,
        h.mapB.toLocal b1, h.mapF.toLocal b2, if_neg (fun h : invalidId ≠ invalidId => h rfl),
        wr_lt (v := s.first) (i := r) (by omega), wr_lt (v := s.second) (i := r) (by omega), Option.bind_eq_bind, Option.bind_some]
  | false =>
    have ha : at' BB a = true := ha
    have hgr : rk (at' BB) a = r := hgr
    have hk := h.keptB ha
    obtain ⟨j, hj⟩ := rd_isSome (v := c.order) (i := x) (by rw [h.order]; omega)
    rcases h.origB hx hy with ⟨e, e1, e2, e3⟩ | ⟨e1, e2⟩
    · refine ⟨true, e, j, bits, ?_, rb, x, y, hx, hy, Or.inl ⟨rfl, e3, hj⟩⟩
      unfold perfectUnpack unpackInput
      simp only [Bool.false_eq_true, if_false, if_true, h.repB.isSet (x := a) (by rw [h.lenB]; exact ha'), ha, h.mapB.toLocal ha, hgr, e1,
        if_pos e2, hx, hj, eb,
        wr_lt (v := s.first) (i := r) (by omega), wr_lt (v := s.second) (i := r) (by omega), Option.bind_eq_bind, Option.bind_some]
    · have hex : ∃ t ∈ l, perfectFits m k false t.1 = some true := by
        rcases hcons.2.2.2 with g | ⟨i, g⟩ | ⟨T, z, g1, g2, g3⟩
        · omega
        · exact absurd (by rw [hk.2.1]; exact g) (e2 i)
        · refine ⟨(T, z), (hl T z).2 ⟨g1, g2⟩, ?_⟩
          obtain ⟨q1, q2, q3⟩ := h.fin.lowerB g2 (by rw [g1]; exact hk.2) (by rw [g1]; exact g3)
          simp only
          rw [h.fitsB g2, h.setB (rd_some_lt g2.mt) q1.1 q1.2, h.setF (rd_some_lt g2.bt) q2.1 q2.2, decide_eq_true q3]
          rfl
      obtain ⟨t, ht, f1, f2⟩ := perfectFirst_spec (fun t ht => ⟨_, h.fitsB (htri t ht).1⟩) hex
      obtain ⟨hT, htop⟩ := htri t ht
      rw [h.fitsB hT] at f2
      simp only [Option.some.injEq, Bool.and_eq_true, decide_eq_true_eq] at f2
      obtain ⟨b1, b2, b3⟩ := f2
      refine ⟨false, rk (at' BB) t.1.mid, rk (at' BF) t.1.bottom, s.isOriginal, ?_, by rw [hsame]; exact hO, x, y, hx, hy,
        Or.inr ⟨rfl, t.1, t.2, hT, htop, b1, b2, rfl, rfl, by rw [b3, htop]⟩⟩
      unfold perfectUnpack perfectShortcut unpackParts
      simp only [Bool.false_eq_true, if_false, if_true, h.repB.isSet (x := a) (by rw [h.lenB]; exact ha'), ha, h.mapB.toLocal ha, hgr, e1,
        hx, hy, el, f1, h.mapB.toLocal b1, h.mapF.toLocal b2, if_neg (fun h : invalidId ≠ invalidId => h rfl),
        wr_lt (v := s.first) (i := r) (by omega), wr_lt (v := s.second) (i := r) (by omega), Option.bind_eq_bind, Option.bind_some]

/-- The finished unpacking vectors of one direction. -/
structure Unpacked (n : Nat) (rt rh w : List Nat) (c : Cch) (BF BB : List Bool) (f b : Nat → Nat) (isF : Bool) (s : ChSide) : Prop where
  first : s.first.length = (side isF BF BB).count true
  second : s.second.length = (side isF BF BB).count true
  bits : ∃ O, s.isOriginal.Rep O ∧ O.length = (side isF BF BB).count true
  good : ∀ a, at' (side isF BF BB) a = true → ∃ o i j,
    UnpackAt s.first s.second s.isOriginal (rk (at' (side isF BF BB)) a) o i j ∧ Good rt rh w c BF BB f b isF a o i j

theorem unpack_spec (h : Perf n rt rh w c U m k BF BB f0 b0 f b) (asserts isF : Bool) {s : ChSide}
    (hO : s.isOriginal.Rep (List.replicate ((side isF BF BB).count true) false))
    (l1 : s.first.length = (side isF BF BB).count true) (l2 : s.second.length = (side isF BF BB).count true) :
    ∃ s', forRange 0 c.cchArcCount s (perfectUnpack asserts c w m k isF) = some s' ∧ s'.firstOut = s.firstOut ∧
      s'.head = s.head ∧ s'.weight = s.weight ∧ Unpacked n rt rh w c BF BB f b isF s' := by
  have hlen := h.ok.graph.up.sorted.1
  generalize hB : side isF BF BB = B at *
  have hBl : B.length = c.upTail.length := by
    rw [← hB]; cases isF
    · exact h.lenB
    · exact h.lenF
  generalize hK : B.count true = K at *
  obtain ⟨s', e, p1, p2, p3, p4, p5, O, p6, p7, p8, p9⟩ := forRange_inv (lo := 0) (hi := c.cchArcCount) (s := s)
    (f := perfectUnpack asserts c w m k isF)
    (fun q s' => s'.firstOut = s.firstOut ∧ s'.head = s.head ∧ s'.weight = s.weight ∧ s'.first.length = K ∧ s'.second.length = K ∧
      ∃ O, s'.isOriginal.Rep O ∧ O.length = K ∧ (∀ a, q ≤ a → at' B a = true → at' O (rk (at' B) a) = false) ∧
        ∀ a, a < q → at' B a = true →
          Good rt rh w c BF BB f b isF a (at' O (rk (at' B) a)) (fn s'.first (rk (at' B) a)) (fn s'.second (rk (at' B) a)))
    (Nat.zero_le _)
    ⟨rfl, rfl, rfl, l1, l2, _, hO, by simp, fun a _ ha => by
      exact at_replicate_false _ _, fun a ha => absurd ha (Nat.not_lt_zero _)⟩
    (by
      rintro q t _ hq ⟨p1, p2, p3, p4, p5, O, p6, p7, p8, p9⟩
      have hq' : q < c.upTail.length := by have : q < c.upHead.length := hq; omega
      cases hbq : at' B q with
      | false =>
        refine ⟨t, ?_, p1, p2, p3, p4, p5, O, p6, p7, fun a h1 h2 => p8 a (by omega) h2, fun a h1 h2 => ?_⟩
        · unfold perfectUnpack
          have : BitVector.isSet (if isF = true then k.keepF else k.keepB) q = some false := by
            rw [← hbq, ← hB]
            cases isF
            · exact h.repB.isSet (by rw [h.lenB]; exact hq')
            · exact h.repF.isSet (by rw [h.lenF]; exact hq')
          simp [this]
        · rcases Nat.lt_succ_iff_lt_or_eq.1 h1 with h1 | rfl
          · exact p9 a h1 h2
          · rw [hbq] at h2; cases h2
      | true =>
        have hr := rk_lt_count hbq
        rw [hK] at hr
        obtain ⟨o, i, j, bits, e, rb, hg⟩ := h.unpack_one asserts isF (a := q) (K := K) (by rw [hB]; exact hbq) p6 p7 p4 p5
          (by rw [hB]; exact hr) (by rw [hB]; exact p8 q (Nat.le_refl _) hbq)
        rw [hB] at e rb
        refine ⟨_, e, p1, p2, p3, by simpa using p4, by simpa using p5, _, rb, by simpa using p7, ?_, ?_⟩
        · intro a h1 h2
          have hne : rk (at' B) a ≠ rk (at' B) q := fun e => by have := rk_inj h2 hbq e; omega
          rw [at_set (by omega), if_neg hne]
          exact p8 a (by omega) h2
        · intro a h1 h2
          rcases Nat.lt_succ_iff_lt_or_eq.1 h1 with h1 | rfl
          · have hne : rk (at' B) a ≠ rk (at' B) q := fun e => by have := rk_inj h2 hbq e; omega
            simp only
            rw [at_set (by omega), if_neg hne, fn_set (by omega), if_neg hne, fn_set (by omega), if_neg hne]
            exact p9 a h1 h2
          · simp only
            rw [at_set (by omega), if_pos rfl, fn_set (by omega), if_pos rfl, fn_set (by omega), if_pos rfl]
            exact hg)
  refine ⟨s', e, p1, p2, p3, ?_⟩
  subst hB
  refine ⟨p4.trans hK.symm, p5.trans hK.symm, ⟨O, p6, p7.trans hK.symm⟩, fun a ha => ?_⟩
  have hr := rk_lt_count ha
  rw [hK] at hr
  have hal : a < c.cchArcCount := by
    have := at_eq_true_lt ha
    show a < c.upHead.length
    omega
  exact ⟨_, _, _, ⟨p6.isSet (by omega), rd_fn (by omega), rd_fn (by omega)⟩, p9 a hal ha⟩

end Perf
end RK
