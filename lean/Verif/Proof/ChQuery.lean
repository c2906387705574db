import Verif.Proof.ChPinnedRun
import Verif.Proof.ChUnpack
import Verif.Proof.History
import Verif.Spec.Query
/-! Helper lemmas: the query object as a whole. -/
namespace RK
open Spec

/-- A hierarchy that queries can be run on. -/
structure HierOk (ch : Ch) (G : QGraph) : Prop where
  ok : ChOk G.n G.arcs ch
  q : QOk G.n ch.forward ch.backward
  n_le : G.n ≤ MinIDQueue.maxIds

def ranked (rank : List Nat) (l : List (Nat × Nat)) : List (Nat × Nat) := l.map fun p => (fn rank p.1, p.2)

theorem mem_ranked {rank : List Nat} {l : List (Nat × Nat)} {i d : Nat} :
    (i, d) ∈ ranked rank l ↔ ∃ s, (s, d) ∈ l ∧ fn rank s = i := by
  unfold ranked
  simp only [List.mem_map, Prod.mk.injEq, Prod.exists]
  constructor
  · rintro ⟨a, b, h, rfl, rfl⟩; exact ⟨a, h, rfl⟩
  · rintro ⟨s, h, rfl⟩; exact ⟨s, d, h, rfl, rfl⟩

def Collecting (n : Nat) (S : ChSide) (src : List (Nat × Nat)) (h : ChHalf) : Prop :=
  ∃ P m, HInv n S noStall (fun _ => False) 0 src h P m ∧ Unstarted P m

structure Pinned (n : Nat) (O : ChSide) (rank ts : List Nat) (h : ChHalf) (k : Nat) : Prop where
  half : HalfOk n h
  sel : SelOk n O h.dist k
  lt : ∀ t ∈ ts, t < n
  tgt : ∀ i t, rd ts i = some t → ∃ r j, rd rank t = some r ∧ rd h.predNode i = some r ∧ j < k ∧ fn h.dist j = r

def PinnedRan (n : Nat) (S O : ChSide) (src : List (Nat × Nat)) (sel : List Nat) (k : Nat) (h : ChHalf) : Prop :=
  ∃ h0 P0 P, PinnedDone n S O src sel k h0 P0 h P

/-- The state of the halves in each mode. -/
def ModeRep (n : Nat) (ch : Ch) (srcs tgts : List (Nat × Nat)) (q : ChQuery) : QMode → Prop
  | .collecting => q.state = .initialized ∧ Collecting n ch.forward srcs q.fwd ∧ Collecting n ch.backward tgts q.bwd
  | .ran => q.state = .run ∧ ∃ best Pf mf Pb mb, q.meeting = best.2 ∧
      RInv n ch.forward ch.backward srcs tgts q.fwd Pf mf q.bwd Pb mb best ∧
      (∀ y k, mf y = some k → best.1 ≤ k) ∧ (∀ y k, mb y = some k → best.1 ≤ k)
  | .toTargets ts false => q.state = .targetPinned ∧ q.manyCount = ts.length ∧
      Pinned n ch.backward ch.rank ts q.bwd q.meeting ∧ Collecting n ch.forward srcs q.fwd
  | .toTargets ts true => q.state = .targetRun ∧ q.manyCount = ts.length ∧
      Pinned n ch.backward ch.rank ts q.bwd q.meeting ∧ PinnedRan n ch.forward ch.backward srcs q.bwd.dist q.meeting q.fwd
  | .toSources ts false => q.state = .sourcePinned ∧ q.manyCount = ts.length ∧
      Pinned n ch.forward ch.rank ts q.fwd q.meeting ∧ Collecting n ch.backward tgts q.bwd
  | .toSources ts true => q.state = .sourceRun ∧ q.manyCount = ts.length ∧
      Pinned n ch.forward ch.rank ts q.fwd q.meeting ∧ PinnedRan n ch.backward ch.forward tgts q.fwd.dist q.meeting q.bwd

structure QRep (q : ChQuery) (s : QState) : Prop where
  ex : ∃ ch, q.ch = some ch ∧ HierOk ch s.graph ∧
    ModeRep s.graph.n ch (ranked ch.rank s.sources) (ranked ch.rank s.targets) q s.mode
  srcLt : ∀ p ∈ s.sources, p.1 < s.graph.n
  tgtLt : ∀ p ∈ s.targets, p.1 < s.graph.n

variable {n : Nat} {S O : ChSide} {src : List (Nat × Nat)} {h : ChHalf} {G : QGraph} {ch : Ch}

theorem Collecting.halfOk (hc : Collecting n S src h) : HalfOk n h := by
  obtain ⟨P, m, hI, _⟩ := hc; exact hI.halfOk

theorem PinnedRan.halfOk {sel : List Nat} {k : Nat} (hc : PinnedRan n S O src sel k h) : HalfOk n h := by
  obtain ⟨h0, P0, P, ⟨T, hI⟩, hs⟩ := hc
  exact ⟨⟨P, hs.flags⟩, ⟨_, by rw [hs.queue]; exact hI.queue⟩, hs.dlen, by rw [hs.plen]; exact hI.plen, hs.alen⟩

theorem HalfOk.collect (hh : HalfOk n h) (S : ChSide) : ∃ h', h.clear = some h' ∧ Collecting n S [] h' := by
  obtain ⟨h', e, hI⟩ := hh.clear (S := S)
  exact ⟨h', e, _, _, hI, fun x hx => by cases hx⟩

theorem Collecting.new (hn : n ≤ MinIDQueue.maxIds) (S : ChSide) : Collecting n S [] (ChHalf.new n) :=
  ⟨_, _, half_new hn, fun x hx => by cases hx⟩

theorem Collecting.nonempty (hc : Collecting n S src h) (hne : src ≠ []) : h.queue.empty = false := by
  obtain ⟨P, m, hI, hu⟩ := hc
  obtain ⟨⟨s, d⟩, hs⟩ := List.exists_mem_of_ne_nil src hne
  by_contra hc
  have he : h.queue.empty = true := by simpa using hc
  exact hu s (hI.srcs s d hs).1 (hI.queue.empty_iff.1 he s)

theorem Collecting.isEmpty (hc : Collecting n S [] h) : MinIDQueue.Rep h.queue n (fun _ => none) := by
  obtain ⟨P, m, hI, hu⟩ := hc
  have hP : ∀ N x, x < N → P x = false := by
    intro N
    induction N with
    | zero => intro x hx; omega
    | succ N ih =>
      intro x _
      by_contra hx
      have hx : P x = true := by simpa using hx
      rcases hI.why x hx with ⟨_, h2⟩ | ⟨p, _, _, _, _, _, h4, h5, _⟩
      · cases h2
      · exact hu p h4 h5
  have hm : m = fun _ => none := by
    funext x
    cases hmx : m x with
    | none => rfl
    | some k =>
      have h1 := (hI.key x k hmx).1
      rw [hP (x + 1) x (by omega)] at h1
      cases h1
  rw [← hm]; exact hI.queue

theorem Collecting.add (hc : Collecting n S (ranked ch.rank src) h) (hk : HierOk ch G) (hn : n = G.n) {x d : Nat}
    (hx : x < n) (hd : d < infWeight) :
    ∃ h', h.addNode ch.rank x d = some h' ∧ Collecting n S (ranked ch.rank (src ++ [(x, d)])) h' := by
  obtain ⟨P, m, hI, hu⟩ := hc
  subst hn
  have hr := hk.ok.rank_rd hx
  obtain ⟨h', P', m', e, hI', hu'⟩ := hI.addNode hu hr (hk.ok.rank_lt hr) hd
  exact ⟨h', e, P', m', by simpa [ranked] using hI', hu'⟩

/-! ### Walks between external ids -/

theorem HierOk.down (hk : HierOk ch G) {x y l : Nat} {p : List Nat} (hx : x < G.n) (hy : y < G.n) (hw : Walk G.arcs x p y l)
    (hl : l < infWeight) : ∃ l', l' ≤ l ∧ RWalk (UR (fun x => x) 0 ch.forward.R ch.backward.R) (fn ch.rank x) (fn ch.rank y) l' :=
  hk.ok.walk_ch hw (hk.ok.rank_rd hx) (hk.ok.rank_rd hy) hl

theorem HierOk.order_fn (hk : HierOk ch G) {x : Nat} (hx : x < G.n) : fn ch.order (fn ch.rank x) = x :=
  hk.ok.order_rank (hk.ok.rank_rd hx)

theorem HierOk.up (hk : HierOk ch G) {x y l : Nat} (hx : x < G.n) (hy : y < G.n)
    (hw : RWalk (UR (fun x => x) 0 ch.forward.R ch.backward.R) (fn ch.rank x) (fn ch.rank y) l) :
    ∃ p, Walk G.arcs x p y l := by
  obtain ⟨p, hp⟩ := hk.ok.walk_in hw
  rw [hk.order_fn hx, hk.order_fn hy] at hp
  exact ⟨_, hp.walk⟩

theorem unreachable_eq : unreachable = infWeight := rfl
theorem noNode_eq : noNode = invalidId := rfl

/-! ### The answers of a plain query -/

theorem results_spec {q : ChQuery} {s : QState} (hk : HierOk ch s.graph) (hch : q.ch = some ch)
    (hsrc : ∀ p ∈ s.sources, p.1 < s.graph.n) (htgt : ∀ p ∈ s.targets, p.1 < s.graph.n)
    (hm : ModeRep s.graph.n ch (ranked ch.rank s.sources) (ranked ch.rank s.targets) q .ran) :
    ∃ r : QResult, q.getDistance = some r.distance ∧ q.getUsedSource = some r.source ∧ q.getUsedTarget = some r.target ∧
      q.getArcPath = some r.arcs ∧ q.getNodePath = some r.nodes ∧ r.Correct s.graph.arcs s.sources s.targets := by
  obtain ⟨hst, best, Pf, mf, Pb, mb, hme, hR, hfF, hfB⟩ := hm
  have hlow : ∀ x y p d, Route s.graph.arcs s.sources s.targets x y p d → d < infWeight → best.1 ≤ d := by
    rintro x y p d ⟨ds, dt, l, h1, h2, h3, rfl⟩ hlt
    obtain ⟨l', hl, hw⟩ := hk.down (hsrc _ h1) (htgt _ h2) h3 (by omega)
    have := hR.complete hk.ok.hier hfF hfB (mem_ranked.2 ⟨x, h1, rfl⟩) (mem_ranked.2 ⟨y, h2, rfl⟩) hw (by omega)
    omega
  have hcs : (decide (q.state = .run)) = true := by rw [hst]; rfl
  rcases hR.meeting with ⟨h1, h2⟩ | ⟨h1, h2, h3, h4, h5⟩
  · refine ⟨⟨infWeight, invalidId, invalidId, [], []⟩, ?_, ?_, ?_, ?_, ?_, Or.inr ⟨rfl, rfl, rfl, rfl, rfl, ?_⟩⟩
    · simp [ChQuery.getDistance, hcs, hme, h1]
    · simp [ChQuery.getUsedSource, hch, hcs, hme, h1]
    · simp [ChQuery.getUsedTarget, hch, hcs, hme, h1]
    · simp [ChQuery.getArcPath, hch, hcs, hme, h1]
    · simp [ChQuery.getNodePath, hch, hcs, hme, h1]
    · intro x y p d hr
      rw [unreachable_eq]
      by_contra hc
      have := hlow x y p d hr (by omega)
      omega
  · obtain ⟨T1, hf⟩ := hR.hf
    obtain ⟨T2, hb⟩ := hR.hb
    have hmn := (hf.small _ h2).1
    have hrl := hk.ok.rankLen
    obtain ⟨a1, s1, d1, l1, c1, c2, c3, c4, c5⟩ := chain_spec hk.q.f hk.q.n_le hf (ch.rank.length + 1) best.2 (by omega) h2
    obtain ⟨a2, s2, d2, l2, e1, e2, e3, e4, e5⟩ := chain_spec hk.q.b hk.q.n_le hb (ch.rank.length + 1) best.2 (by omega) h3
    obtain ⟨p1, u1, w1⟩ := unpackAll_up hk.ok c3
    obtain ⟨p2, u2, w2⟩ := unpackAll_down hk.ok a2 e3
    obtain ⟨x, hx, rfl⟩ := mem_ranked.1 c2
    obtain ⟨y, hy, rfl⟩ := mem_ranked.1 e2
    have hxn := hsrc _ hx
    have hyn := htgt _ hy
    rw [hk.order_fn hxn] at w1
    rw [hk.order_fn hyn] at w2
    have hw := w1.append w2
    have ho1 : rd ch.order (fn ch.rank x) = some x := by
      have := hk.ok.order_rd c5; rw [hk.order_fn hxn] at this; exact this
    have ho2 : rd ch.order (fn ch.rank y) = some y := by
      have := hk.ok.order_rd e5; rw [hk.order_fn hyn] at this; exact this
    have hpp : q.pathPairs ch = some (x, p1 ++ p2) := by
      simp only [ChQuery.pathPairs, hme, c1, ho1, u1, e1, u2, Option.bind_eq_bind, Option.bind_some]
    have hsum : add32 (fn q.fwd.dist best.2) (fn q.bwd.dist best.2) = fn q.fwd.dist best.2 + fn q.bwd.dist best.2 := by
      unfold add32; rw [infWeight_val] at h5; rw [u32_val]; omega
    refine ⟨⟨fn q.fwd.dist best.2 + fn q.bwd.dist best.2, x, y, (p1 ++ p2).map Prod.fst, x :: (p1 ++ p2).map Prod.snd⟩,
      ?_, ?_, ?_, ?_, ?_, Or.inl ⟨?_, ⟨d1, d2, l1 + l2, hx, hy, hw.walk, ?_⟩, hw.nodes, ?_⟩⟩
    · simp only [ChQuery.getDistance, hcs, check_true, hme, h1, if_false, rd_fn (show best.2 < q.fwd.dist.length by rw [hf.dlen]; exact hmn),
        rd_fn (show best.2 < q.bwd.dist.length by rw [hb.dlen]; exact hmn), hsum, Option.bind_eq_bind, Option.bind_some]
    · simp only [ChQuery.getUsedSource, hch, hcs, check_true, hme, h1, if_false, c1, ho1, Option.bind_eq_bind, Option.bind_some]
    · simp only [ChQuery.getUsedTarget, hch, hcs, check_true, hme, h1, if_false, e1, ho2, Option.bind_eq_bind, Option.bind_some]
    · simp only [ChQuery.getArcPath, hch, hcs, check_true, hme, h1, if_false, hpp, Option.bind_eq_bind, Option.bind_some]
    · simp only [ChQuery.getNodePath, hch, hcs, check_true, hme, h1, if_false, hpp, Option.bind_eq_bind, Option.bind_some]
    · dsimp only; rw [unreachable_eq]; omega
    · dsimp only; omega
    · intro x' y' p' d' hr
      dsimp only
      by_cases hlt : d' < infWeight
      · have := hlow x' y' p' d' hr hlt
        omega
      · omega

/-! ### The answers of a pinned query -/

theorem collect_list {f : Nat → Option Nat} {k : Nat} (hf : ∀ i, i < k → ∃ v, f i = some v) :
    ∃ out, forRange 0 k [] (fun out i => (f i).bind fun v => some (out ++ [v])) = some out ∧ out.length = k ∧
      ∀ i v, rd out i = some v → f i = some v := by
  obtain ⟨out, e, h1, h2⟩ := forRange_inv (lo := 0) (hi := k) (s := ([] : List Nat))
    (f := fun out i => (f i).bind fun v => some (out ++ [v]))
    (fun i out => out.length = i ∧ ∀ j v, rd out j = some v → f j = some v) (Nat.zero_le _)
    ⟨rfl, fun j v hv => by cases hv⟩
    (by
      rintro i out _ hi ⟨h1, h2⟩
      obtain ⟨v, hv⟩ := hf i hi
      refine ⟨out ++ [v], by simp [hv], by simp [h1], ?_⟩
      intro j w hw
      by_cases hj : j < out.length
      · exact h2 j w (by unfold rd at hw ⊢; rwa [List.getElem?_append_left hj] at hw)
      · unfold rd at hw
        rw [List.getElem?_append_right (by omega)] at hw
        have : j - out.length = 0 := by
          by_contra hc
          rw [List.getElem?_eq_none (by simp; omega)] at hw
          cases hw
        rw [this] at hw
        simp at hw
        subst hw
        have : j = i := by omega
        rw [this]; exact hv)
  exact ⟨out, e, h1, h2⟩

theorem pinned_lists {T : Nat → Nat → Nat → Prop} {rank order ts : List Nat} {pin h : ChHalf} {k : Nat}
    (hp : Pinned n O rank ts pin k) (hts : ts ≠ [])
    (hans : ∀ t r, t ∈ ts → rd rank t = some r → (∃ j, j < k ∧ fn pin.dist j = r) →
      ∃ v u, rd h.dist r = some v ∧ ChHalf.usedSource O order h r = some u ∧ T t v u) :
    ∃ ds us, ChHalf.extractDistances pin.predNode ts.length h.dist = some ds ∧
      ChHalf.usedSources O order h pin.predNode ts.length = some us ∧ ForAll3 T ts ds us := by
  have hne : ts.length ≠ 0 := by simpa using hts
  have hall : ∀ i t, rd ts i = some t → ∃ r v u, rd pin.predNode i = some r ∧ rd h.dist r = some v ∧
      ChHalf.usedSource O order h r = some u ∧ T t v u := by
    intro i t ht
    obtain ⟨r, j, h1, h2, h3, h4⟩ := hp.tgt i t ht
    obtain ⟨v, u, h5, h6, h7⟩ := hans t r (List.mem_of_getElem? ht) h1 ⟨j, h3, h4⟩
    exact ⟨r, v, u, h2, h5, h6, h7⟩
  obtain ⟨ds, e1, l1, g1⟩ := collect_list (k := ts.length) (f := fun i => (rd pin.predNode i).bind fun t => rd h.dist t) (by
    intro i hi
    obtain ⟨r, v, u, q1, q2, q3, q4⟩ := hall i _ (rd_fn hi)
    exact ⟨v, by simp [q1, q2]⟩)
  obtain ⟨us, e2, l2, g2⟩ := collect_list (k := ts.length)
    (f := fun i => (rd pin.predNode i).bind fun t => ChHalf.usedSource O order h t) (by
    intro i hi
    obtain ⟨r, v, u, q1, q2, q3, q4⟩ := hall i _ (rd_fn hi)
    exact ⟨u, by simp [q1, q3]⟩)
  refine ⟨ds, us, ?_, ?_, l1, l2, ?_⟩
  · unfold ChHalf.extractDistances
    simp only [Option.bind_assoc] at e1
    simp only [ne_eq, hne, not_false_eq_true, decide_true, check_true, Option.bind_eq_bind, Option.bind_some, e1]
  · unfold ChHalf.usedSources
    simp only [Option.bind_assoc] at e2
    simp only [ne_eq, hne, not_false_eq_true, decide_true, check_true, Option.bind_eq_bind, Option.bind_some, e2]
  · intro i t v u ht hv hu
    obtain ⟨r, v', u', q1, q2, q3, q4⟩ := hall i t ht
    have a1 := g1 i v hv
    have a2 := g2 i u hu
    simp only [q1, Option.bind_some, q2, q3, Option.some.injEq] at a1 a2
    subst a1; subst a2
    exact q4

theorem toTargets_answer (hk : HierOk ch G) {srcs : List (Nat × Nat)} (hsrc : ∀ p ∈ srcs, p.1 < G.n) {sel : List Nat} {k : Nat}
    (hsel : SelOk G.n ch.backward sel k) (hr : PinnedRan G.n ch.forward ch.backward (ranked ch.rank srcs) sel k h)
    {t r : Nat} (ht : t < G.n) (hrt : rd ch.rank t = some r) (hj : ∃ j, j < k ∧ fn sel j = r) :
    ∃ v u, rd h.dist r = some v ∧ ChHalf.usedSource ch.backward ch.order h r = some u ∧ ToTarget G.arcs srcs t v u := by
  obtain ⟨h0, P0, P, hd⟩ := hr
  obtain ⟨j, hjk, rfl⟩ := hj
  obtain ⟨v, u, a1, a2, a3⟩ := hd.answer hk.q.f hk.q.b hk.q.n_le hk.ok.hier hsel hk.ok.orderLen hjk
  refine ⟨v, u, a1, a2, ?_⟩
  have hfr : fn ch.rank t = fn sel j := fn_of_rd hrt
  have conv : ∀ x y p d, Route G.arcs srcs [(t, 0)] x y p d → d < infWeight →
      ∃ d', d' ≤ d ∧ Reach ch.forward ch.backward (ranked ch.rank srcs) (fn sel j) d' := by
    rintro x y p d ⟨ds, dt, l, h1, h2, h3, rfl⟩ hlt
    simp only [List.mem_singleton, Prod.mk.injEq] at h2
    obtain ⟨rfl, rfl⟩ := h2
    obtain ⟨l', hl, hw⟩ := hk.down (hsrc _ h1) ht h3 (by omega)
    rw [hfr] at hw
    exact ⟨ds + l', by omega, _, ds, l', mem_ranked.2 ⟨x, h1, rfl⟩, hw, rfl⟩
  rcases a3 with ⟨b1, b2, b3⟩ | ⟨b1, b2, s, ds, l, b3, b4, b5, b6⟩
  · right
    refine ⟨b1, b2, fun x y p d hr => ?_⟩
    rw [unreachable_eq]
    by_contra hlt
    obtain ⟨d', h1, h2⟩ := conv x y p d hr (by omega)
    have := b3 d' h2
    omega
  · left
    obtain ⟨x, hx, rfl⟩ := mem_ranked.1 b4
    have hxn := hsrc _ hx
    have hu : u = x := by
      have := fn_of_rd b3
      rw [hk.order_fn hxn] at this
      exact this.symm
    subst hu
    rw [← hfr] at b5
    obtain ⟨p, hp⟩ := hk.up hxn ht b5
    refine ⟨b1, ⟨p, ds, 0, l, hx, by simp, hp, by omega⟩, fun x y p d hr => ?_⟩
    by_contra hlt
    obtain ⟨d', h1, h2⟩ := conv x y p d hr (by omega)
    have := b2 d' h2
    omega

theorem toSources_answer (hk : HierOk ch G) {tgts : List (Nat × Nat)} (htgt : ∀ p ∈ tgts, p.1 < G.n) {sel : List Nat} {k : Nat}
    (hsel : SelOk G.n ch.forward sel k) (hr : PinnedRan G.n ch.backward ch.forward (ranked ch.rank tgts) sel k h)
    {t r : Nat} (ht : t < G.n) (hrt : rd ch.rank t = some r) (hj : ∃ j, j < k ∧ fn sel j = r) :
    ∃ v u, rd h.dist r = some v ∧ ChHalf.usedSource ch.forward ch.order h r = some u ∧ ToSource G.arcs tgts t v u := by
  obtain ⟨h0, P0, P, hd⟩ := hr
  obtain ⟨j, hjk, rfl⟩ := hj
  obtain ⟨v, u, a1, a2, a3⟩ := hd.answer hk.q.b hk.q.f hk.q.n_le hk.ok.hier.swap hsel hk.ok.orderLen hjk
  refine ⟨v, u, a1, a2, ?_⟩
  have hfr : fn ch.rank t = fn sel j := fn_of_rd hrt
  have conv : ∀ x y p d, Route G.arcs [(t, 0)] tgts x y p d → d < infWeight →
      ∃ d', d' ≤ d ∧ Reach ch.backward ch.forward (ranked ch.rank tgts) (fn sel j) d' := by
    rintro x y p d ⟨ds, dt, l, h1, h2, h3, rfl⟩ hlt
    simp only [List.mem_singleton, Prod.mk.injEq] at h1
    obtain ⟨rfl, rfl⟩ := h1
    obtain ⟨l', hl, hw⟩ := hk.down ht (htgt _ h2) h3 (by omega)
    rw [hfr] at hw
    exact ⟨dt + l', by omega, _, dt, l', mem_ranked.2 ⟨y, h2, rfl⟩, UR.swap hw, rfl⟩
  rcases a3 with ⟨b1, b2, b3⟩ | ⟨b1, b2, s, ds, l, b3, b4, b5, b6⟩
  · right
    refine ⟨b1, b2, fun x y p d hr => ?_⟩
    rw [unreachable_eq]
    by_contra hlt
    obtain ⟨d', h1, h2⟩ := conv x y p d hr (by omega)
    have := b3 d' h2
    omega
  · left
    obtain ⟨x, hx, rfl⟩ := mem_ranked.1 b4
    have hxn := htgt _ hx
    have hu : u = x := by
      have := fn_of_rd b3
      rw [hk.order_fn hxn] at this
      exact this.symm
    subst hu
    rw [← hfr] at b5
    obtain ⟨p, hp⟩ := hk.up ht hxn (UR.swap b5)
    refine ⟨b1, ⟨p, 0, ds, l, by simp, hx, hp, by omega⟩, fun x y p d hr => ?_⟩
    by_contra hlt
    obtain ⟨d', h1, h2⟩ := conv x y p d hr (by omega)
    have := b2 d' h2
    omega

/-! ### All operations -/

/-- Performs one call on the model; `none` stands for undefined behaviour or a failed assertion. -/
def chCall (q : ChQuery) : QOp Ch → Option (ChQuery × QOut)
  | .reset => q.reset.map fun q => (q, .unit)
  | .attach ch _ => (q.resetCh ch).map fun q => (q, .unit)
  | .addSource s d => (q.addSource s d).map fun q => (q, .unit)
  | .addTarget s d => (q.addTarget s d).map fun q => (q, .unit)
  | .run => q.run.map fun q => (q, .unit)
  | .results => do
    let d ← q.getDistance
    let s ← q.getUsedSource
    let t ← q.getUsedTarget
    let a ← q.getArcPath
    let p ← q.getNodePath
    some (q, .result ⟨d, s, t, a, p⟩)
  | .pinTargets ts => (q.pinTargets ts).map fun q => (q, .unit)
  | .pinSources ss => (q.pinSources ss).map fun q => (q, .unit)
  | .resetSource => q.resetSource.map fun q => (q, .unit)
  | .resetTarget => q.resetTarget.map fun q => (q, .unit)
  | .runToPinnedTargets => q.runToPinnedTargets.map fun q => (q, .unit)
  | .runToPinnedSources => q.runToPinnedSources.map fun q => (q, .unit)
  | .resultsToTargets => do
    let d ← q.getDistancesToTargets
    let u ← q.getUsedSourcesToTargets
    some (q, .lists d u)
  | .resultsToSources => do
    let d ← q.getDistancesToSources
    let u ← q.getUsedTargetsToSources
    some (q, .lists d u)
  | .pinnedTargetCount => q.getPinnedTargetCount.map fun k => (q, .num k)
  | .pinnedSourceCount => q.getPinnedSourceCount.map fun k => (q, .num k)

theorem chQuery_rep_new {ch : Ch} {G : QGraph} (hk : HierOk ch G) : QRep (ChQuery.new ch) (QState.fresh G) where
  ex := ⟨ch, rfl, hk, rfl, by unfold ChQuery.new; rw [hk.ok.rankLen]; exact Collecting.new hk.n_le _,
    by unfold ChQuery.new; rw [hk.ok.rankLen]; exact Collecting.new hk.n_le _⟩
  srcLt := fun p hp => by cases hp
  tgtLt := fun p hp => by cases hp

theorem ModeRep.halves {srcs tgts : List (Nat × Nat)} {q : ChQuery} {md : QMode}
    (hm : ModeRep n ch srcs tgts q md) : HalfOk n q.fwd ∧ HalfOk n q.bwd := by
  match md, hm with
  | .collecting, ⟨_, h1, h2⟩ => exact ⟨h1.halfOk, h2.halfOk⟩
  | .ran, ⟨_, _, _, _, _, _, _, hR, _⟩ =>
    obtain ⟨_, h1⟩ := hR.hf
    obtain ⟨_, h2⟩ := hR.hb
    exact ⟨h1.halfOk, h2.halfOk⟩
  | .toTargets ts false, ⟨_, _, h1, h2⟩ => exact ⟨h2.halfOk, h1.half⟩
  | .toTargets ts true, ⟨_, _, h1, h2⟩ => exact ⟨h2.halfOk, h1.half⟩
  | .toSources ts false, ⟨_, _, h1, h2⟩ => exact ⟨h1.half, h2.halfOk⟩
  | .toSources ts true, ⟨_, _, h1, h2⟩ => exact ⟨h1.half, h2.halfOk⟩

theorem reset_spec {q : ChQuery} (hch : q.ch.isSome = true) (hf : HalfOk n q.fwd) (hb : HalfOk n q.bwd) (F B : ChSide) :
    ∃ f b, q.reset = some { q with fwd := f, bwd := b, meeting := invalidId, state := .initialized } ∧
      Collecting n F [] f ∧ Collecting n B [] b := by
  obtain ⟨f, ef, hf'⟩ := hf.collect F
  obtain ⟨b, eb, hb'⟩ := hb.collect B
  exact ⟨f, b, by simp [ChQuery.reset, hch, ef, eb], hf', hb'⟩

theorem chCall_spec {q : ChQuery} {s : QState} {op : QOp Ch} (hc : QRep q s)
    (hp : QPre HierOk (fun n k => k ≤ n) s op) :
    ∃ q' out s', chCall q op = some (q', out) ∧ QStep s op out s' ∧ QRep q' s' := by
  obtain ⟨⟨ch, hch, hk, hm⟩, hsl, htl⟩ := hc
  have hrl := hk.ok.rankLen
  obtain ⟨hfo, hbo⟩ := hm.halves
  cases op with
  | reset =>
    obtain ⟨f, b, e, hf, hb⟩ := reset_spec (by simp [hch]) hfo hbo ch.forward ch.backward
    refine ⟨{ q with fwd := f, bwd := b, meeting := invalidId, state := .initialized }, .unit, _,
      by simp only [chCall, e, Option.map_some], ⟨rfl, rfl⟩, ⟨ch, hch, hk, rfl, hf, hb⟩, ?_, ?_⟩ <;>
    · intro p hp; cases hp
  | attach ch' G =>
    have hk' : HierOk ch' G := hp
    by_cases hlen : q.fwd.dist.length = ch'.rank.length
    · obtain ⟨f, b, e, hf, hb⟩ := reset_spec (by simp [hch]) hfo hbo ch'.forward ch'.backward
      have hnn : s.graph.n = G.n := by rw [← hfo.dlen, hlen, hk'.ok.rankLen]
      refine ⟨{ q with ch := some ch', fwd := f, bwd := b, meeting := invalidId, state := .initialized }, .unit, _,
        by simp only [chCall, ChQuery.resetCh, hlen, if_true, e, Option.bind_eq_bind, Option.bind_some, Option.map_some],
        ⟨rfl, rfl⟩, ⟨ch', rfl, hk', ?_⟩, ?_, ?_⟩
      · refine ⟨rfl, ?_, ?_⟩
        · rw [hnn] at hf; exact hf
        · rw [hnn] at hb; exact hb
      · intro p hp; cases hp
      · intro p hp; cases hp
    · exact ⟨_, .unit, _, by simp only [chCall, ChQuery.resetCh, hlen, if_false, Option.map_some], ⟨rfl, rfl⟩, chQuery_rep_new hk'⟩
  | addSource x d =>
    obtain ⟨hx, hd, hmode⟩ := hp
    have hx' : x < ch.rank.length := by rw [hrl]; exact hx
    have key : Collecting s.graph.n ch.forward (ranked ch.rank s.sources) q.fwd → (q.state = .initialized ∨ q.state = .targetPinned) →
        ∃ h', chCall q (.addSource x d) = some ({ q with fwd := h' }, .unit) ∧
          Collecting s.graph.n ch.forward (ranked ch.rank (s.sources ++ [(x, d)])) h' := by
      intro hcol hst
      obtain ⟨h', e, hcol'⟩ := hcol.add hk rfl hx hd
      exact ⟨h', by simp [chCall, ChQuery.addSource, hch, hx', hst, e], hcol'⟩
    have hsl' : ∀ p ∈ s.sources ++ [(x, d)], p.1 < s.graph.n := by
      intro p hp
      rcases List.mem_append.1 hp with hp | hp
      · exact hsl p hp
      · rw [List.mem_singleton.1 hp]; exact hx
    rcases hmode with hmode | ⟨ts, hmode⟩
    · rw [hmode] at hm
      obtain ⟨h', e, hcol'⟩ := key hm.2.1 (Or.inl hm.1)
      refine ⟨_, .unit, _, e, ⟨rfl, rfl⟩, ⟨ch, hch, hk, ?_⟩, hsl', htl⟩
      simp only [hmode]
      exact ⟨hm.1, hcol', hm.2.2⟩
    · rw [hmode] at hm
      obtain ⟨h', e, hcol'⟩ := key hm.2.2.2 (Or.inr hm.1)
      refine ⟨_, .unit, _, e, ⟨rfl, rfl⟩, ⟨ch, hch, hk, ?_⟩, hsl', htl⟩
      simp only [hmode]
      exact ⟨hm.1, hm.2.1, hm.2.2.1, hcol'⟩
  | addTarget x d =>
    obtain ⟨hx, hd, hmode⟩ := hp
    have hx' : x < ch.rank.length := by rw [hrl]; exact hx
    have key : Collecting s.graph.n ch.backward (ranked ch.rank s.targets) q.bwd → (q.state = .initialized ∨ q.state = .sourcePinned) →
        ∃ h', chCall q (.addTarget x d) = some ({ q with bwd := h' }, .unit) ∧
          Collecting s.graph.n ch.backward (ranked ch.rank (s.targets ++ [(x, d)])) h' := by
      intro hcol hst
      obtain ⟨h', e, hcol'⟩ := hcol.add hk rfl hx hd
      exact ⟨h', by simp [chCall, ChQuery.addTarget, hch, hx', hst, e], hcol'⟩
    have htl' : ∀ p ∈ s.targets ++ [(x, d)], p.1 < s.graph.n := by
      intro p hp
      rcases List.mem_append.1 hp with hp | hp
      · exact htl p hp
      · rw [List.mem_singleton.1 hp]; exact hx
    rcases hmode with hmode | ⟨ts, hmode⟩
    · rw [hmode] at hm
      obtain ⟨h', e, hcol'⟩ := key hm.2.2 (Or.inl hm.1)
      refine ⟨_, .unit, _, e, ⟨rfl, rfl⟩, ⟨ch, hch, hk, ?_⟩, hsl, htl'⟩
      simp only [hmode]
      exact ⟨hm.1, hm.2.1, hcol'⟩
    · rw [hmode] at hm
      obtain ⟨h', e, hcol'⟩ := key hm.2.2.2 (Or.inr hm.1)
      refine ⟨_, .unit, _, e, ⟨rfl, rfl⟩, ⟨ch, hch, hk, ?_⟩, hsl, htl'⟩
      simp only [hmode]
      exact ⟨hm.1, hm.2.1, hm.2.2.1, hcol'⟩
  | run =>
    obtain ⟨hmode, hs0, ht0⟩ := hp
    rw [hmode] at hm
    obtain ⟨hst, hf, hb⟩ := hm
    have hne1 := hf.nonempty (by simpa [ranked] using hs0)
    have hne2 := hb.nonempty (by simpa [ranked] using ht0)
    obtain ⟨P1, m1, hI1, hu1⟩ := hf
    obtain ⟨P2, m2, hI2, hu2⟩ := hb
    obtain ⟨f', b', best', Pf', mf', Pb', mb', e, hR, hfF, hfB⟩ := chRunLoop_spec hk.q (2 * ch.rank.length + 1)
      (f := q.fwd) (b := q.bwd) (best := (infWeight, invalidId)) (Lf := []) (Lb := []) true
      ⟨⟨0, hI1.restart hu1⟩, ⟨0, hI2.restart hu2⟩, Nat.le_refl _, Or.inl ⟨rfl, rfl⟩,
        fun x h1 h2 => absurd h2 (hu1 x h1)⟩
      ⟨List.nodup_nil, by simp⟩ ⟨List.nodup_nil, by simp⟩ (by simp [hrl])
    refine ⟨{ q with fwd := f', bwd := b', meeting := best'.2, state := .run }, .unit, _, ?_, ⟨rfl, rfl⟩,
      ⟨ch, hch, hk, rfl, best', Pf', mf', Pb', mb', rfl, hR, hfF, hfB⟩, hsl, htl⟩
    simp [chCall, ChQuery.run, hch, hne1, hne2, hst, e]
  | results =>
    have hmode : s.mode = .ran := hp
    rw [hmode] at hm
    obtain ⟨r, e1, e2, e3, e4, e5, hr⟩ := results_spec hk hch hsl htl hm
    refine ⟨q, .result r, s, by simp [chCall, e1, e2, e3, e4, e5], ⟨rfl, r, rfl, hr⟩, ⟨ch, hch, hk, ?_⟩, hsl, htl⟩
    rw [hmode]; exact hm
  | pinTargets ts =>
    obtain ⟨hmode, ht0, hlen, hlt⟩ := hp
    rw [hmode] at hm
    obtain ⟨hst, hf, hb⟩ := hm
    rw [ht0] at hb
    obtain ⟨qq, l, sel, k, e, hq, hl, hsel, htg⟩ := pin_spec hk.q.b hrl hb.isEmpty hbo.dlen hbo.plen hlen hlt
      (fun x i h => hk.ok.rank_lt h)
    have hall : (ts.all fun t => decide (t < ch.rank.length)) = true := by
      rw [List.all_eq_true]; intro t ht; rw [hrl]; exact decide_eq_true (hlt t ht)
    refine ⟨{ q with bwd := { q.bwd with queue := qq, predNode := l, dist := sel }, manyCount := ts.length, meeting := k, state := .targetPinned },
      .unit, _, ?_, ⟨rfl, rfl⟩, ⟨ch, hch, hk, rfl, rfl, ⟨⟨hbo.flags, ⟨_, hq⟩, hsel.len, hl, hbo.alen⟩, hsel, hlt, htg⟩, hf⟩, hsl, htl⟩
    simp [chCall, ChQuery.pinTargets, hch, hall, hst, e]
  | pinSources ts =>
    obtain ⟨hmode, ht0, hlen, hlt⟩ := hp
    rw [hmode] at hm
    obtain ⟨hst, hf, hb⟩ := hm
    rw [ht0] at hf
    obtain ⟨qq, l, sel, k, e, hq, hl, hsel, htg⟩ := pin_spec hk.q.f hrl hf.isEmpty hfo.dlen hfo.plen hlen hlt
      (fun x i h => hk.ok.rank_lt h)
    have hall : (ts.all fun t => decide (t < ch.rank.length)) = true := by
      rw [List.all_eq_true]; intro t ht; rw [hrl]; exact decide_eq_true (hlt t ht)
    refine ⟨{ q with fwd := { q.fwd with queue := qq, predNode := l, dist := sel }, manyCount := ts.length, meeting := k, state := .sourcePinned },
      .unit, _, ?_, ⟨rfl, rfl⟩, ⟨ch, hch, hk, rfl, rfl, ⟨⟨hfo.flags, ⟨_, hq⟩, hsel.len, hl, hfo.alen⟩, hsel, hlt, htg⟩, hb⟩, hsl, htl⟩
    simp [chCall, ChQuery.pinSources, hch, hall, hst, e]
  | resetSource =>
    obtain ⟨ts, b, hmode⟩ := hp
    rw [hmode] at hm
    have hx : (q.state = .targetPinned ∨ q.state = .targetRun) ∧ q.manyCount = ts.length ∧
        Pinned s.graph.n ch.backward ch.rank ts q.bwd q.meeting := by
      cases b
      · exact ⟨Or.inl hm.1, hm.2.1, hm.2.2.1⟩
      · exact ⟨Or.inr hm.1, hm.2.1, hm.2.2.1⟩
    obtain ⟨hst, hmc, hpin⟩ := hx
    obtain ⟨f, ef, hf⟩ := hfo.collect ch.forward
    refine ⟨{ q with fwd := f, state := .targetPinned }, .unit, _, ?_, ⟨ts, b, hmode, rfl, rfl⟩,
      ⟨ch, hch, hk, rfl, hmc, hpin, hf⟩, fun p hp => (by cases hp), htl⟩
    simp [chCall, ChQuery.resetSource, hch, hst, ef]
  | resetTarget =>
    obtain ⟨ts, b, hmode⟩ := hp
    rw [hmode] at hm
    have hx : (q.state = .sourcePinned ∨ q.state = .sourceRun) ∧ q.manyCount = ts.length ∧
        Pinned s.graph.n ch.forward ch.rank ts q.fwd q.meeting := by
      cases b
      · exact ⟨Or.inl hm.1, hm.2.1, hm.2.2.1⟩
      · exact ⟨Or.inr hm.1, hm.2.1, hm.2.2.1⟩
    obtain ⟨hst, hmc, hpin⟩ := hx
    obtain ⟨f, ef, hf⟩ := hbo.collect ch.backward
    refine ⟨{ q with bwd := f, state := .sourcePinned }, .unit, _, ?_, ⟨ts, b, hmode, rfl, rfl⟩,
      ⟨ch, hch, hk, rfl, hmc, hpin, hf⟩, hsl, fun p hp => by cases hp⟩
    simp [chCall, ChQuery.resetTarget, hch, hst, ef]
  | runToPinnedTargets =>
    obtain ⟨⟨ts, hmode⟩, hs0⟩ := hp
    rw [hmode] at hm
    obtain ⟨hst, hmc, hpin, hcol⟩ := hm
    have hne := hcol.nonempty (by simpa [ranked] using hs0)
    obtain ⟨P, m, hI, hu⟩ := hcol
    obtain ⟨h', h0, P0, P', e, hd⟩ := pinnedRun_spec hk.q.f hk.q.b hk.q.n_le hpin.sel hI hu
    refine ⟨{ q with fwd := h', state := .targetRun }, .unit, _, ?_, ⟨ts, false, hmode, rfl, rfl⟩,
      ⟨ch, hch, hk, rfl, hmc, hpin, h0, P0, P', hd⟩, hsl, htl⟩
    simp [chCall, ChQuery.runToPinnedTargets, hch, hst, hne, e]
  | runToPinnedSources =>
    obtain ⟨⟨ts, hmode⟩, hs0⟩ := hp
    rw [hmode] at hm
    obtain ⟨hst, hmc, hpin, hcol⟩ := hm
    have hne := hcol.nonempty (by simpa [ranked] using hs0)
    obtain ⟨P, m, hI, hu⟩ := hcol
    obtain ⟨h', h0, P0, P', e, hd⟩ := pinnedRun_spec hk.q.b hk.q.f hk.q.n_le hpin.sel hI hu
    refine ⟨{ q with bwd := h', state := .sourceRun }, .unit, _, ?_, ⟨ts, false, hmode, rfl, rfl⟩,
      ⟨ch, hch, hk, rfl, hmc, hpin, h0, P0, P', hd⟩, hsl, htl⟩
    simp [chCall, ChQuery.runToPinnedSources, hch, hst, hne, e]
  | resultsToTargets =>
    obtain ⟨ts, hmode, hts⟩ := hp
    have hm' := hm
    rw [hmode] at hm
    obtain ⟨hst, hmc, hpin, hran⟩ := hm
    obtain ⟨ds, us, e1, e2, hall⟩ := pinned_lists hpin hts (T := ToTarget s.graph.arcs s.sources) (h := q.fwd) (order := ch.order)
      (fun t r ht hr hj => toTargets_answer hk hsl hpin.sel hran (hpin.lt t ht) hr hj)
    refine ⟨q, .lists ds us, s, ?_, ⟨rfl, ts, true, ds, us, hmode, rfl, hall⟩, ⟨ch, hch, hk, hm'⟩, hsl, htl⟩
    simp [chCall, ChQuery.getDistancesToTargets, ChQuery.getUsedSourcesToTargets, hch, hst, hmc, e1, e2]
  | resultsToSources =>
    obtain ⟨ts, hmode, hts⟩ := hp
    have hm' := hm
    rw [hmode] at hm
    obtain ⟨hst, hmc, hpin, hran⟩ := hm
    obtain ⟨ds, us, e1, e2, hall⟩ := pinned_lists hpin hts (T := ToSource s.graph.arcs s.targets) (h := q.bwd) (order := ch.order)
      (fun t r ht hr hj => toSources_answer hk htl hpin.sel hran (hpin.lt t ht) hr hj)
    refine ⟨q, .lists ds us, s, ?_, ⟨rfl, ts, true, ds, us, hmode, rfl, hall⟩, ⟨ch, hch, hk, hm'⟩, hsl, htl⟩
    simp [chCall, ChQuery.getDistancesToSources, ChQuery.getUsedTargetsToSources, hch, hst, hmc, e1, e2]
  | pinnedTargetCount =>
    obtain ⟨ts, b, hmode⟩ := hp
    have hm' := hm
    rw [hmode] at hm
    have hx : (q.state = .targetRun ∨ q.state = .targetPinned) ∧ q.manyCount = ts.length := by
      cases b
      · exact ⟨Or.inr hm.1, hm.2.1⟩
      · exact ⟨Or.inl hm.1, hm.2.1⟩
    refine ⟨q, .num ts.length, s, ?_, ⟨rfl, ts, b, hmode, rfl⟩, ⟨ch, hch, hk, hm'⟩, hsl, htl⟩
    simp [chCall, ChQuery.getPinnedTargetCount, hx]
  | pinnedSourceCount =>
    obtain ⟨ts, b, hmode⟩ := hp
    have hm' := hm
    rw [hmode] at hm
    have hx : (q.state = .sourceRun ∨ q.state = .sourcePinned) ∧ q.manyCount = ts.length := by
      cases b
      · exact ⟨Or.inr hm.1, hm.2.1⟩
      · exact ⟨Or.inl hm.1, hm.2.1⟩
    refine ⟨q, .num ts.length, s, ?_, ⟨rfl, ts, b, hmode, rfl⟩, ⟨ch, hch, hk, hm'⟩, hsl, htl⟩
    simp [chCall, ChQuery.getPinnedSourceCount, hx]

end RK
