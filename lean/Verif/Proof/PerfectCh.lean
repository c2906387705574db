import Verif.Proof.CchPerfect
import Verif.Proof.ChCheck
import Verif.Proof.ChQuery
/-! Helper lemmas: the result of the perfect witness search is a hierarchy that passes the check. -/
namespace RK
open Spec BitVector

/-- Adjacency vectors of one direction of the result. -/
structure SideAt (n : Nat) (c : Cch) (B : List Bool) (g : Nat → Nat) (s : ChSide) : Prop where
  up : UpOk n s.firstOut s.head (pick true B c.upTail)
  head : s.head = pick true B c.upHead
  len : B.length = c.upTail.length
  weight : ∃ v, Is v c.upTail.length g ∧ s.weight = pick true B v

namespace SideAt
variable {n : Nat} {c : Cch} {B : List Bool} {g : Nat → Nat} {s : ChSide}

theorem count (h : SideAt n c B g s) : s.head.length = B.count true := by
  have := h.up.sorted.1
  rw [← this, pick_length h.len]

theorem arc (h : SideAt n c B g s) (hl : c.upTail.length = c.upHead.length) {i x y w : Nat} :
    s.Arc i x y w ↔ ∃ a, at' B a = true ∧ rk (at' B) a = i ∧ rd c.upTail a = some x ∧ rd c.upHead a = some y ∧ w = g a := by
  obtain ⟨v, hv, hw⟩ := h.weight
  have lB := h.len
  have lh : B.length = c.upHead.length := by omega
  have lv : B.length = v.length := by rw [hv.1]; exact lB
  unfold ChSide.Arc csrArcs
  rw [h.up.csr.2]
  constructor
  · rintro ⟨h1, h2, h3⟩
    obtain ⟨a, a1, a2, a3⟩ := pick_pos lB h1
    rw [h.head] at h2
    rw [hw] at h3
    have e2 : rd c.upHead a = some y := by rw [← pick_rk lh a1, a2]; exact h2
    have e3 : rd v a = some w := by rw [← pick_rk lv a1, a2]; exact h3
    exact ⟨a, a1, a2, a3, e2, rd_congr_some e3 (hv.2 a (rd_some_lt a3))⟩
  · rintro ⟨a, a1, rfl, a3, a4, rfl⟩
    refine ⟨by rw [pick_rk lB a1]; exact a3, ?_, ?_⟩
    · rw [h.head]; exact (pick_rk lh a1).trans a4
    · rw [hw]; exact (pick_rk lv a1).trans (hv.2 a (rd_some_lt a3))

theorem weight_length (h : SideAt n c B g s) : s.weight.length = s.head.length := by
  obtain ⟨v, hv, hw⟩ := h.weight
  rw [hw, pick_length (by rw [hv.1]; exact h.len), h.count]

theorem congr (h : SideAt n c B g s) {s' : ChSide} (h1 : s'.firstOut = s.firstOut) (h2 : s'.head = s.head) (h3 : s'.weight = s.weight) :
    SideAt n c B g s' := by
  obtain ⟨a1, a2, a3, a4⟩ := h
  exact ⟨by rw [h1, h2]; exact a1, by rw [h2]; exact a2, a3, by rw [h3]; exact a4⟩

end SideAt

theorem perfectSide_spec {n : Nat} {c : Cch} {B : List Bool} {g : Nat → Nat} {v : List Nat} {keep : BitVector} {map : LocalIDMapper}
    (u : UpOk n c.upFirstOut c.upHead c.upTail) (hn : c.nodeCount = n) (hk : keep.Rep B) (hB : B.length = c.upTail.length)
    (hs : c.upTail.length ≤ invalidId) (hm : map.Ok B) (hv : Is v c.upTail.length g) :
    ∃ s, perfectSide c v keep map = some s ∧ SideAt n c B g s ∧ s.isOriginal.Rep (List.replicate (B.count true) false) ∧
      s.first.length = B.count true ∧ s.second.length = B.count true := by
  have hlen := u.sorted.1
  obtain ⟨fo, e1, u'⟩ := pick_up u (K := B) (by omega)
  have hc : B.count true ≤ B.length := List.count_le_length
  obtain ⟨bits, e2, hb⟩ := rep_new (n := B.count true) (by rw [invalidId_val] at hs; unfold u64; omega) false
  refine ⟨⟨fo, pick true B c.upHead, pick true B v, List.replicate (B.count true) 0, List.replicate (B.count true) 0, bits⟩, ?_,
    ⟨u', rfl, hB, v, hv, rfl⟩, hb.1, by simp, by simp⟩
  unfold perfectSide
  simp only [keepElementIf, inplaceKeep, inplaceFilter_spec hk true c.upHead (by omega), inplaceFilter_spec hk true c.upTail hB,
    inplaceFilter_spec hk true v (by rw [hv.1]; exact hB), hn, e1, pick_length (show B.length = c.upHead.length by omega), e2,
    hm.localIdCount, Option.bind_eq_bind, Option.bind_some]

/-- The result of the perfect witness search before it is checked. -/
structure PerfResult (n : Nat) (rt rh w : List Nat) (c : Cch) (BF BB : List Bool) (f b : Nat → Nat) (ch : Ch) : Prop where
  rank : ch.rank = c.rank
  order : ch.order = c.order
  fwd : SideAt n c BF f ch.forward
  bwd : SideAt n c BB b ch.backward
  uF : Perf.Unpacked n rt rh w c BF BB f b true ch.forward
  uB : Perf.Unpacked n rt rh w c BF BB f b false ch.backward

variable {n : Nat} {rt rh w : List Nat} {c : Cch} {U : List Bool} {m : Metric} {k : PerfectMaps} {BF BB : List Bool}
  {f0 b0 f b : Nat → Nat}

/-- Of two arcs to the same node the one from the lower node has the smaller id; likewise for the parts of a shortcut. -/
theorem upOk_strict {fo tail head : List Nat} (h : UpOk n fo head tail) (x a b u v : Nat) (ha : OutArc fo x a)
    (hb : OutArc fo x b) (hab : a < b) (hu : head[a]? = some u) (hv : head[b]? = some v) : u < v := by
  rcases h.sorted.2 a b x x u v hab ((h.csr.2 a x).1 ha) ((h.csr.2 b x).1 hb) hu hv with e | ⟨_, e⟩
  · omega
  · exact e

theorem sorted_lt {fo tail head : List Nat} (u : UpOk n fo head tail) {a a' x x' : Nat} (h1 : rd tail a = some x)
    (h2 : rd tail a' = some x') (hx : x < x') : a < a' := by
  rcases Nat.lt_or_ge a a' with h | h
  · exact h
  · have := u.sorted.pairwise
    rcases Nat.eq_or_lt_of_le h with rfl | h
    · have := rd_congr_some h1 h2; omega
    · rw [List.pairwise_iff_getElem] at this
      have i1 := rd_some_lt h1
      have i2 := rd_some_lt h2
      have := this a' a i2 i1 h
      have e1 : tail[a]? = some x := h1
      have e2 : tail[a']? = some x' := h2
      rw [List.getElem?_eq_getElem (by omega)] at e1 e2
      injection e1 with e1
      injection e2 with e2
      omega

theorem Perf.relF (h : Perf n rt rh w c U m k BF BB f0 b0 f b) {s : ChSide} (hs : SideAt n c BF f s) (x y v : Nat) :
    s.R x y v ↔ KF c.upTail c.upHead f0 f x y v := by
  have hlen := h.ok.graph.up.sorted.1
  constructor
  · rintro ⟨i, hi⟩
    obtain ⟨a, a1, _, a3, a4, a5⟩ := (hs.arc hlen).1 hi
    exact ⟨a, a3, a4, (h.keptF a1).2, a5⟩
  · rintro ⟨a, a3, a4, a1, a5⟩
    exact ⟨_, (hs.arc hlen).2 ⟨a, h.setF (rd_some_lt a3) a1.1 a1.2, rfl, a3, a4, a5⟩⟩

theorem Perf.relB (h : Perf n rt rh w c U m k BF BB f0 b0 f b) {s : ChSide} (hs : SideAt n c BB b s) (x y v : Nat) :
    s.R x y v ↔ KF c.upTail c.upHead b0 b x y v := by
  have hlen := h.ok.graph.up.sorted.1
  constructor
  · rintro ⟨i, hi⟩
    obtain ⟨a, a1, _, a3, a4, a5⟩ := (hs.arc hlen).1 hi
    exact ⟨a, a3, a4, (h.keptB a1).2, a5⟩
  · rintro ⟨a, a3, a4, a1, a5⟩
    exact ⟨_, (hs.arc hlen).2 ⟨a, h.setB (rd_some_lt a3) a1.1 a1.2, rfl, a3, a4, a5⟩⟩

theorem PerfResult.chOk (h : Perf n rt rh w c U m k BF BB f0 b0 f b) {ch : Ch} (r : PerfResult n rt rh w c BF BB f b ch)
    (hinv : AreInverse c.order c.rank) (hp : IsPerm c.rank) {In : ArcRel}
    (toRank : ∀ i x y w', In i x y w' → x < n ∧ y < n ∧ listArcs rt rh w i (fn c.rank x) (fn c.rank y) w')
    (ofRank : ∀ i x y w', listArcs rt rh w i x y w' → In i (fn c.order x) (fn c.order y) w') : ChOk n In ch := by
  have hlen := h.ok.graph.up.sorted.1
  have hcl : ∀ {B : List Bool}, B.length = c.upTail.length → B.count true ≤ invalidId := fun {B} hB => by
    have := h.ok.small
    have : B.count true ≤ B.length := List.count_le_length
    omega
  have hRF : ch.forward.R = KF c.upTail c.upHead f0 f := by funext x y v; exact propext (h.relF r.fwd x y v)
  have hRB : ch.backward.R = KF c.upTail c.upHead b0 b := by funext x y v; exact propext (h.relB r.bwd x y v)
  have hnodes : ∀ {x}, x < n → rd c.rank x = some (fn c.rank x) := fun hx => rd_fn (by rw [h.ok.nodes]; exact hx)
  have hord : ∀ {x}, x < n → rd c.order x = some (fn c.order x) := fun hx => rd_fn (by rw [h.order]; exact hx)
  refine ⟨by rw [r.rank]; exact h.ok.nodes, by rw [r.order]; exact h.order, by rw [r.rank]; exact hp, ?_, ?_, ?_, ?_, ?_, ?_, ?_⟩
  · intro i x _
    rw [r.rank, r.order]
    exact (hinv.2 i x).symm
  · exact ⟨r.fwd.up.csr.1, r.fwd.weight_length, by rw [r.fwd.count]; exact hcl h.lenF, upOk_strict r.fwd.up⟩
  · exact ⟨r.bwd.up.csr.1, r.bwd.weight_length, by rw [r.bwd.count]; exact hcl h.lenB, upOk_strict r.bwd.up⟩
  · rw [hRF, hRB]; exact h.fin.hier
  · intro i x y v hi
    obtain ⟨a, a1, rfl, a3, a4, rfl⟩ := (r.fwd.arc hlen).1 hi
    obtain ⟨o, p, q, hu, x', y', g1, g2, g3⟩ := r.uF.good a a1
    cases rd_congr_some g1 a3
    cases rd_congr_some g2 a4
    obtain ⟨hxy, hyn⟩ := h.ok.graph.up.up x y ⟨a, a3, a4⟩
    refine ⟨o, p, q, hu, ?_⟩
    rw [r.order]
    rcases g3 with ⟨rfl, q1, q2⟩ | ⟨rfl, T, z, hT, q1, q2, q3, rfl, rfl, q4⟩
    · exact Or.inl ⟨rfl, _, _, hord (by omega), hord hyn, ofRank _ _ _ _ q1, (fn_of_rd q2).symm⟩
    · refine Or.inr ⟨rfl, z, b T.bottom, f T.mid, ?_, ?_, q4.symm⟩
      · exact (r.bwd.arc hlen).2 ⟨T.bottom, q2, rfl, hT.bt, hT.bh, rfl⟩
      · exact (r.fwd.arc hlen).2 ⟨T.mid, q3, rfl, hT.mt, hT.mh, rfl⟩
  · intro i x y v hi
    obtain ⟨a, a1, rfl, a3, a4, rfl⟩ := (r.bwd.arc hlen).1 hi
    obtain ⟨o, p, q, hu, x', y', g1, g2, g3⟩ := r.uB.good a a1
    cases rd_congr_some g1 a3
    cases rd_congr_some g2 a4
    obtain ⟨hxy, hyn⟩ := h.ok.graph.up.up x y ⟨a, a3, a4⟩
    refine ⟨o, p, q, hu, ?_⟩
    rw [r.order]
    rcases g3 with ⟨rfl, q1, q2⟩ | ⟨rfl, T, z, hT, q1, q2, q3, rfl, rfl, q4⟩
    · exact Or.inl ⟨rfl, _, _, hord hyn, hord (by omega), ofRank _ _ _ _ q1, (fn_of_rd q2).symm⟩
    · refine Or.inr ⟨rfl, z, b T.mid, f T.bottom, ?_, ?_, q4.symm⟩
      · exact (r.bwd.arc hlen).2 ⟨T.mid, q2, rfl, hT.mt, hT.mh, rfl⟩
      · exact (r.fwd.arc hlen).2 ⟨T.bottom, q3, rfl, hT.bt, hT.bh, rfl⟩
  · intro i x y v hi hne hlt
    obtain ⟨hx, hy, ha⟩ := toRank i x y v hi
    have hw : WL (listArcs rt rh w) (fn c.rank x) (fn c.rank y) v := ⟨[i], by simpa using Walk.cons ha (Walk.nil _)⟩
    obtain ⟨mm, l1, l2, g1, g2, g3⟩ := h.fin.updown hw hlt
    rw [r.rank, hRF, hRB]
    exact ⟨_, _, l1 + l2, hnodes hx, hnodes hy, g3, UR.of_updown (fun _ _ _ h' => (KF.up h.ok.graph.up h').1)
      (fun _ _ _ h' => (KF.up h.ok.graph.up h').1) g1 g2 (Nat.zero_le _) (Nat.zero_le _)⟩

theorem PerfResult.valid (h : Perf n rt rh w c U m k BF BB f0 b0 f b) {ch : Ch} (r : PerfResult n rt rh w c BF BB f b ch)
    (hinv : AreInverse c.order c.rank) {OF OB : List Bool} (hF : ch.forward.isOriginal.Rep OF) (hB : ch.backward.isOriginal.Rep OB)
    (lF : OF.length = BF.count true) (lB : OB.length = BB.count true) :
    ValidHierarchy ch.rank ch.order (ch.forward.contents OF) (ch.backward.contents OB) := by
  have hinf : infWeight = 2147483647 := rfl
  have hlen := h.ok.graph.up.sorted.1
  have u := h.ok.graph.up
  have hn : ch.rank.length = n := by rw [r.rank]; exact h.ok.nodes
  have hbit : ∀ {v : BitVector} {O : List Bool} {i : Nat} {o : Bool}, v.Rep O → O[i]? = some o → v.isSet i = some o := fun hv hi =>
    (holdsBits_of_rep hv).2 _ _ hi
  have kF : ∀ i, i < BF.count true → ∃ a, at' BF a = true ∧ rk (at' BF) a = i := fun i hi => by
    obtain ⟨x, hx⟩ := rd_isSome (v := pick true BF c.upTail) (i := i) (by rw [pick_length h.lenF]; exact hi)
    obtain ⟨a, a1, a2, _⟩ := pick_pos h.lenF hx
    exact ⟨a, a1, a2⟩
  have kB : ∀ i, i < BB.count true → ∃ a, at' BB a = true ∧ rk (at' BB) a = i := fun i hi => by
    obtain ⟨x, hx⟩ := rd_isSome (v := pick true BB c.upTail) (i := i) (by rw [pick_length h.lenB]; exact hi)
    obtain ⟨a, a1, a2, _⟩ := pick_pos h.lenB hx
    exact ⟨a, a1, a2⟩
  have hio : ∀ {i x y v}, listArcs rt rh w i x y v → i ≠ 4294967295 := fun hi => by
    have := rd_some_lt (v := rt) hi.1
    have := h.size
    rw [invalidId_val] at this
    omega
  have hj : ∀ {x j}, rd c.order x = some j → j < n := fun hx => by
    have := rd_some_lt (v := c.rank) ((hinv.2 _ _).1 hx)
    rw [h.ok.nodes] at this
    exact this
  have hw32 : ∀ {p q r : Nat}, p + q = r → r < infWeight → r = (p + q) % 2 ^ 32 := fun h1 h2 => by omega
  rw [show ch.rank = c.rank from r.rank, show ch.order = c.order from r.order, ← show ch.rank = c.rank from r.rank] at *
  refine ⟨?_, ?_, ?_, ?_, ?_, ?_, ?_⟩
  · exact hinv
  · rw [hn]
    refine ⟨r.fwd.up.csr.1, r.fwd.weight_length, ?_, ?_, ?_, ?_⟩
    · show ch.forward.first.length = ch.forward.head.length; rw [r.fwd.count, r.uF.first]; rfl
    · show ch.forward.second.length = ch.forward.head.length; rw [r.fwd.count, r.uF.second]; rfl
    · show OF.length = ch.forward.head.length; rw [r.fwd.count, lF]
    · intro a x y ha hy
      exact (r.fwd.up.up x y ⟨a, (r.fwd.up.csr.2 a x).1 ha, hy⟩).1
  · rw [hn]
    refine ⟨r.bwd.up.csr.1, r.bwd.weight_length, ?_, ?_, ?_, ?_⟩
    · show ch.backward.first.length = ch.backward.head.length; rw [r.bwd.count, r.uB.first]; rfl
    · show ch.backward.second.length = ch.backward.head.length; rw [r.bwd.count, r.uB.second]; rfl
    · show OB.length = ch.backward.head.length; rw [r.bwd.count, lB]
    · intro a x y ha hy
      exact (r.bwd.up.up x y ⟨a, (r.bwd.up.csr.2 a x).1 ha, hy⟩).1
  · intro i hi p q hp hq
    obtain ⟨a, a1, rfl⟩ := kF i (by rw [← lF]; exact rd_some_lt (v := OF) hi)
    obtain ⟨o, p', q', hu, x, y, g1, g2, g3⟩ := r.uF.good a a1
    cases rd_congr_some hp hu.first
    cases rd_congr_some hq hu.second
    cases (hu.bit.symm.trans (hbit hF hi) : some o = some true)
    rcases g3 with ⟨_, q1, q2⟩ | ⟨e, _⟩
    · rw [hn]; exact ⟨hio q1, hj q2⟩
    · cases e
  · intro i hi p q hp hq
    obtain ⟨a, a1, rfl⟩ := kB i (by rw [← lB]; exact rd_some_lt (v := OB) hi)
    obtain ⟨o, p', q', hu, x, y, g1, g2, g3⟩ := r.uB.good a a1
    cases rd_congr_some hp hu.first
    cases rd_congr_some hq hu.second
    cases (hu.bit.symm.trans (hbit hB hi) : some o = some true)
    rcases g3 with ⟨_, q1, q2⟩ | ⟨e, _⟩
    · rw [hn]; exact ⟨hio q1, hj q2⟩
    · cases e
  · intro i hi
    obtain ⟨a, a1, rfl⟩ := kF i (by rw [← lF]; exact rd_some_lt (v := OF) hi)
    obtain ⟨o, p, q, hu, x, y, g1, g2, g3⟩ := r.uF.good a a1
    cases (hu.bit.symm.trans (hbit hF hi) : some o = some false)
    rcases g3 with ⟨e, _⟩ | ⟨_, T, z, hT, q1, q2, q3, rfl, rfl, q4⟩
    · cases e
    · have hz := (u.up z x ⟨_, hT.bt, hT.bh⟩).1
      exact ⟨_, _, f a, b T.bottom, f T.mid, hu.first, hu.second, rk_lt_of_set q3 (sorted_lt u hT.mt g1 hz),
        ((r.fwd.arc hlen).2 ⟨a, a1, rfl, g1, g2, rfl⟩).2.2, ((r.bwd.arc hlen).2 ⟨_, q2, rfl, hT.bt, hT.bh, rfl⟩).2.2,
        ((r.fwd.arc hlen).2 ⟨_, q3, rfl, hT.mt, hT.mh, rfl⟩).2.2, hw32 q4 (by have := h.keptF a1; omega)⟩
  · intro i hi
    obtain ⟨a, a1, rfl⟩ := kB i (by rw [← lB]; exact rd_some_lt (v := OB) hi)
    obtain ⟨o, p, q, hu, x, y, g1, g2, g3⟩ := r.uB.good a a1
    cases (hu.bit.symm.trans (hbit hB hi) : some o = some false)
    rcases g3 with ⟨e, _⟩ | ⟨_, T, z, hT, q1, q2, q3, rfl, rfl, q4⟩
    · cases e
    · have hz := (u.up z x ⟨_, hT.bt, hT.bh⟩).1
      exact ⟨_, _, b a, b T.mid, f T.bottom, hu.first, hu.second, rk_lt_of_set q2 (sorted_lt u hT.mt g1 hz),
        ((r.bwd.arc hlen).2 ⟨a, a1, rfl, g1, g2, rfl⟩).2.2, ((r.bwd.arc hlen).2 ⟨_, q2, rfl, hT.mt, hT.mh, rfl⟩).2.2,
        ((r.fwd.arc hlen).2 ⟨_, q3, rfl, hT.bt, hT.bh, rfl⟩).2.2, hw32 q4 (by have := h.keptB a1; omega)⟩

/-- Everything the construction promises. -/
structure PerfDone (n : Nat) (rt rh w : List Nat) (c : Cch) (U : List Bool) (m0 m1 : Metric) (k : PerfectMaps) (BF BB : List Bool)
    (f0 b0 f b : Nat → Nat) (ch : Ch) : Prop where
  perf : Perf n rt rh w c U m1 k BF BB f0 b0 f b
  start : MetricIs m0 c.upTail.length f0 b0
  res : PerfResult n rt rh w c BF BB f b ch

theorem buildPerfect_spec (hok : CchOk n rt rh c U) (hfill : ∀ x y, HasArc c.upTail c.upHead x y ↔ Fill rt rh x y)
    (hwl : w.length = rt.length) (hw : WeightsOk w) (hsz : rt.length ≤ invalidId) (hn : n < invalidId)
    (hinv : AreInverse c.order c.rank) (hp : IsPerm c.order) {old : Metric}
    (l1 : old.forward.length = c.upTail.length) (l2 : old.backward.length = c.upTail.length) (asserts : Bool) :
    ∃ ch m0 m1 k BF BB f0 b0 f b, old.customize c w = some m0 ∧ old.buildPerfect asserts c w = some (ch, m1) ∧
      PerfDone n rt rh w c U m0 m1 k BF BB f0 b0 f b ch := by
  have hlen := hok.graph.up.sorted.1
  obtain ⟨m0, f0, b0, s, f, b, e0, hm0, hcus, e1, ⟨hm, ⟨BF, rF, lF, bF⟩, ⟨BB, rB, lB, bB⟩⟩, hend⟩ :=
    perfectWeights_spec hok hfill hwl hw l1 l2
  have e2 := perfectVerify_spec asserts hm hend
  obtain ⟨mF, eF, oF⟩ := LocalIDMapper.new_spec rF
  obtain ⟨mB, eB, oB⟩ := LocalIDMapper.new_spec rB
  have hnc : c.nodeCount = n := hok.nodes
  have hP : Perf n rt rh w c U s.metric ⟨s.keepF, s.keepB, mF, mB⟩ BF BB f0 b0 f b :=
    ⟨hok, by rw [hinv.1]; exact hok.nodes, hwl, hsz, hcus, hend, hm, rF, rB, lF, lB, bF, bB, oF, oB⟩
  obtain ⟨sf, e3, s1, s2, s3, s4⟩ := perfectSide_spec hok.graph.up hnc rF lF hok.small oF hm.isF
  obtain ⟨sb, e4, t1, t2, t3, t4⟩ := perfectSide_spec hok.graph.up hnc rB lB hok.small oB hm.isB
  obtain ⟨sf', e5, p1, p2, p3, p4⟩ := hP.unpack_spec asserts true s2 s3 s4
  obtain ⟨sb', e6, q1, q2, q3, q4⟩ := hP.unpack_spec asserts false t2 t3 t4
  have hR : PerfResult n rt rh w c BF BB f b ⟨c.rank, c.order, sf', sb'⟩ :=
    ⟨rfl, rfl, s1.congr p1 p2 p3, t1.congr q1 q2 q3, p4, q4⟩
  obtain ⟨OF, g1, g2⟩ := p4.bits
  obtain ⟨OB, g3, g4⟩ := q4.bits
  have e7 : checkCh ⟨c.rank, c.order, sf', sb'⟩ = some true :=
    (checkCh_spec (ch := ⟨c.rank, c.order, sf', sb'⟩) hp (by show c.rank.length < _; rw [hok.nodes]; exact hn)
      (holdsBits_of_rep g1) (holdsBits_of_rep g3)).true_of (hR.valid hP hinv g1 g3 g2 g4)
  refine ⟨⟨c.rank, c.order, sf', sb'⟩, m0, s.metric, _, BF, BB, f0, b0, f, b, e0, ?_, hP, hm0, hR⟩
  unfold Metric.buildPerfect perfectCh
  simp only [e1, e2, eF, eB, e3, e4, e5, e6, e7, check_true, Option.bind_eq_bind, Option.bind_some]

theorem PerfDone.hierOk {m0 m1 : Metric} {ch : Ch} (h : PerfDone n rt rh w c U m0 m1 k BF BB f0 b0 f b ch)
    (hinv : AreInverse c.order c.rank) (hp : IsPerm c.rank) {G : QGraph} (hG : G.n = n) (hn : n ≤ MinIDQueue.maxIds)
    (toRank : ∀ i x y w', G.arcs i x y w' → x < n ∧ y < n ∧ listArcs rt rh w i (fn c.rank x) (fn c.rank y) w')
    (ofRank : ∀ i x y w', listArcs rt rh w i x y w' → G.arcs i (fn c.order x) (fn c.order y) w') : HierOk ch G := by
  subst hG
  have ok := h.res.chOk h.perf hinv hp toRank ofRank
  have hb : MinIDQueue.maxIds ≤ invalidId := by decide
  refine ⟨ok, ⟨⟨ok.fwd, ?_, ?_⟩, ⟨ok.bwd, ?_, ?_⟩, by omega⟩, hn⟩
  · intro x y v hv; exact KF.up h.perf.ok.graph.up ((h.perf.relF h.res.fwd x y v).1 hv)
  · intro x y v hv
    obtain ⟨a, _, _, q, rfl⟩ := (h.perf.relF h.res.fwd x y v).1 hv
    omega
  · intro x y v hv; exact KF.up h.perf.ok.graph.up ((h.perf.relB h.res.bwd x y v).1 hv)
  · intro x y v hv
    obtain ⟨a, _, _, q, rfl⟩ := (h.perf.relB h.res.bwd x y v).1 hv
    omega

end RK
