import Verif.Proof.ChQuery
import Verif.Proof.SameQueue
/-! Helper lemmas: the answers of a query on a contraction hierarchy do not depend on stale memory. -/
namespace RK
open Spec

namespace ChHalf

/-- The node was reached. -/
def Flagged (h : ChHalf) (x : Nat) : Prop := h.pushed.isSet x = some true

/-- The parts that path extraction reads agree. -/
structure PathSame (h1 h2 : ChHalf) : Prop where
  flags : TimestampFlags.Same h1.pushed h2.pushed
  lt1 : h1.pushed.currentTimestamp < TimestampFlags.u16
  lt2 : h2.pushed.currentTimestamp < TimestampFlags.u16
  dlen : h1.dist.length = h2.dist.length
  dist : ∀ x, h1.Flagged x → rd h1.dist x = rd h2.dist x
  pn : ∀ x, h1.Flagged x → rd h1.predNode x = rd h2.predNode x
  pa : ∀ x, h1.Flagged x → rd h1.predNode x ≠ some invalidId → rd h1.predArc x = rd h2.predArc x

/-- Two searches in the same situation; memory that was not written since the last reset may differ. -/
structure Same (n : Nat) (h1 h2 : ChHalf) : Prop where
  path : PathSame h1 h2
  queue : MinIDQueue.Same n h1.Flagged h1.queue h2.queue

variable {n : Nat} {h1 h2 : ChHalf}

theorem set_timestamp {f g : TimestampFlags} {x : Nat} (h : f.set x = some g) : g.currentTimestamp = f.currentTimestamp := by
  simp only [TimestampFlags.set, Option.bind_eq_bind, Option.bind_eq_some_iff] at h
  obtain ⟨l, _, h⟩ := h
  cases h; rfl

/-- Any update of node `x` that writes the same values in both. -/
theorem Same.update (h : Same n h1 h2) {x : Nat} {q1 q2 : MinIDQueue} {f1 f2 : TimestampFlags} {d1 d2 p1 p2 a1 a2 : List Nat}
    (hf : TimestampFlags.Same f1 f2) (hfx : ∀ i, f1.isSet i = if i = x then some true else h1.pushed.isSet i)
    (t1 : f1.currentTimestamp = h1.pushed.currentTimestamp) (t2 : f2.currentTimestamp = h2.pushed.currentTimestamp)
    (hq : MinIDQueue.Same n (fun i => h1.Flagged i ∨ i = x) q1 q2)
    (dl : d1.length = d2.length) (dx : rd d1 x = rd d2 x) (dr1 : ∀ i, i ≠ x → rd d1 i = rd h1.dist i)
    (dr2 : ∀ i, i ≠ x → rd d2 i = rd h2.dist i)
    (px : rd p1 x = rd p2 x) (pr1 : ∀ i, i ≠ x → rd p1 i = rd h1.predNode i) (pr2 : ∀ i, i ≠ x → rd p2 i = rd h2.predNode i)
    (ax : rd p1 x ≠ some invalidId → rd a1 x = rd a2 x) (ar1 : ∀ i, i ≠ x → rd a1 i = rd h1.predArc i)
    (ar2 : ∀ i, i ≠ x → rd a2 i = rd h2.predArc i) :
    Same n ⟨f1, q1, d1, p1, a1⟩ ⟨f2, q2, d2, p2, a2⟩ := by
  have fl : ∀ i, i ≠ x → Flagged ⟨f1, q1, d1, p1, a1⟩ i → h1.Flagged i := by
    intro i hi hF
    unfold Flagged at hF ⊢
    rw [hfx i, if_neg hi] at hF; exact hF
  refine ⟨⟨hf, by rw [t1]; exact h.path.lt1, by rw [t2]; exact h.path.lt2, dl, ?_, ?_, ?_⟩, ?_⟩
  · intro i hi
    by_cases e : i = x
    · subst e; exact dx
    · simp only [dr1 i e, dr2 i e]; exact h.path.dist i (fl i e hi)
  · intro i hi
    by_cases e : i = x
    · subst e; exact px
    · simp only [pr1 i e, pr2 i e]; exact h.path.pn i (fl i e hi)
  · intro i hi hne
    by_cases e : i = x
    · subst e; exact ax hne
    · simp only [ar1 i e, ar2 i e]
      simp only [pr1 i e] at hne
      exact h.path.pa i (fl i e hi) hne
  · refine hq.mono fun i hi => ?_
    unfold Flagged
    show f1.isSet i = some true
    rw [hfx i]
    split
    · rfl
    · rename_i hne
      exact hi.resolve_right hne

theorem rd_wr_ne {v w : List Nat} {i x : Nat} (h : wr v i x = some w) : ∀ j, j ≠ i → rd w j = rd v j := by
  intro j hj
  rw [rd_wr h, if_neg hj]

theorem rd_wr_self {v w : List Nat} {i x : Nat} (h : wr v i x = some w) : rd w i = some x := by
  rw [rd_wr h, if_pos rfl]

theorem Same.addNode (h : Same n h1 h2) (rank : List Nat) (e d : Nat) : ORel (Same n) (h1.addNode rank e d) (h2.addNode rank e d) := by
  unfold ChHalf.addNode
  simp only [Option.bind_eq_bind]
  refine ORel.bind_eq rfl fun s _ _ => ?_
  refine ORel.bind_eq (h.queue.containsId s) fun c hc _ => ?_
  cases c with
  | true =>
    have hs : h1.Flagged s := h.queue.contained hc
    simp only [if_true]
    refine ORel.bind_eq (h.path.dist s hs) fun ds _ _ => ?_
    split
    · refine ORel.bind (R := fun u v => u.length = v.length ∧ rd u s = rd v s ∧ (∀ j, j ≠ s → rd u j = rd h1.dist j) ∧
          ∀ j, j ≠ s → rd v j = rd h2.dist j) ?_ fun u v _ _ hd => ?_
      · intro u v e1 e2
        exact ⟨by rw [wr_length e1, wr_length e2, h.path.dlen], by rw [rd_wr_self e1, rd_wr_self e2], rd_wr_ne e1, rd_wr_ne e2⟩
      obtain ⟨hd1, hd2, hd3, hd4⟩ := hd
      refine ORel.bind h.queue.decreaseKey fun a b _ _ hab => ?_
      refine ORel.bind (h.path.flags.set s) fun f1 f2 e1 e2 hf => ORel.pure ?_
      exact h.update hf.1 hf.2 (set_timestamp e1) (set_timestamp e2) (hab.1.mono fun _ => Or.inl) hd1 hd2 hd3 hd4 (h.path.pn s hs)
        (fun _ _ => rfl) (fun _ _ => rfl) (h.path.pa s hs) (fun _ _ => rfl) (fun _ _ => rfl)
    · refine ORel.bind (h.path.flags.set s) fun f1 f2 e1 e2 hf => ORel.pure ?_
      exact h.update hf.1 hf.2 (set_timestamp e1) (set_timestamp e2) (h.queue.mono fun _ => Or.inl) h.path.dlen (h.path.dist s hs)
        (fun _ _ => rfl) (fun _ _ => rfl) (h.path.pn s hs) (fun _ _ => rfl) (fun _ _ => rfl) (h.path.pa s hs) (fun _ _ => rfl)
        (fun _ _ => rfl)
  | false =>
    simp only [Bool.false_eq_true, if_false]
    refine ORel.bind ((h.queue.mono (S' := fun i => h1.Flagged i ∨ i = s) fun _ => Or.inl).push (Or.inr rfl)) fun q1 q2 _ _ hq => ?_
    refine ORel.bind (R := fun u v => wr h1.dist s d = some u ∧ wr h2.dist s d = some v) (fun u v e1 e2 => ⟨e1, e2⟩) fun u v _ _ hd => ?_
    refine ORel.bind (R := fun u v => wr h1.predNode s invalidId = some u ∧ wr h2.predNode s invalidId = some v)
      (fun u v e1 e2 => ⟨e1, e2⟩) fun u' v' _ _ hp => ?_
    refine ORel.bind (h.path.flags.set s) fun f1 f2 e1 e2 hf => ORel.pure ?_
    exact h.update hf.1 hf.2 (set_timestamp e1) (set_timestamp e2) hq (by rw [wr_length hd.1, wr_length hd.2, h.path.dlen])
      (by rw [rd_wr_self hd.1, rd_wr_self hd.2]) (rd_wr_ne hd.1) (rd_wr_ne hd.2) (by rw [rd_wr_self hp.1, rd_wr_self hp.2])
      (rd_wr_ne hp.1) (rd_wr_ne hp.2) (fun hne => absurd (rd_wr_self hp.1) hne) (fun _ _ => rfl) (fun _ _ => rfl)

theorem Same.relaxArc (h : Same n h1 h2) (side : ChSide) (node key arc : Nat) :
    ORel (Same n) (ChHalf.relaxArc side node key h1 arc) (ChHalf.relaxArc side node key h2 arc) := by
  unfold ChHalf.relaxArc
  simp only [Option.bind_eq_bind]
  refine ORel.bind_eq rfl fun y _ _ => ORel.bind_eq rfl fun w _ _ => ?_
  refine ORel.bind_eq (h.path.flags y) fun p hp _ => ?_
  cases p with
  | true =>
    have hs : h1.Flagged y := hp
    simp only [if_true]
    refine ORel.bind_eq (h.path.dist y hs) fun dy _ _ => ?_
    split
    · refine ORel.bind h.queue.decreaseKey fun a b _ _ hab => ?_
      refine ORel.bind (R := fun u v => wr h1.dist y (add32 key w) = some u ∧ wr h2.dist y (add32 key w) = some v)
        (fun u v e1 e2 => ⟨e1, e2⟩) fun u v _ _ hd => ?_
      refine ORel.bind (R := fun u v => wr h1.predNode y node = some u ∧ wr h2.predNode y node = some v)
        (fun u v e1 e2 => ⟨e1, e2⟩) fun u' v' _ _ hn => ?_
      refine ORel.bind (R := fun u v => wr h1.predArc y arc = some u ∧ wr h2.predArc y arc = some v)
        (fun u v e1 e2 => ⟨e1, e2⟩) fun u'' v'' _ _ ha => ORel.pure ?_
      refine h.update (x := y) h.path.flags ?_ rfl rfl (hab.1.mono fun _ => Or.inl) (by rw [wr_length hd.1, wr_length hd.2, h.path.dlen])
        (by rw [rd_wr_self hd.1, rd_wr_self hd.2]) (rd_wr_ne hd.1) (rd_wr_ne hd.2) (by rw [rd_wr_self hn.1, rd_wr_self hn.2])
        (rd_wr_ne hn.1) (rd_wr_ne hn.2) (fun _ => by rw [rd_wr_self ha.1, rd_wr_self ha.2]) (rd_wr_ne ha.1) (rd_wr_ne ha.2)
      intro i
      split
      · rename_i e; rw [e]; exact hs
      · rfl
    · exact ORel.pure h
  | false =>
    simp only [Bool.false_eq_true, if_false]
    split
    · refine ORel.bind ((h.queue.mono (S' := fun i => h1.Flagged i ∨ i = y) fun _ => Or.inl).push (Or.inr rfl)) fun q1 q2 _ _ hq => ?_
      refine ORel.bind (R := fun u v => wr h1.dist y (add32 key w) = some u ∧ wr h2.dist y (add32 key w) = some v)
        (fun u v e1 e2 => ⟨e1, e2⟩) fun u v _ _ hd => ?_
      refine ORel.bind (h.path.flags.set y) fun f1 f2 e1 e2 hf => ?_
      refine ORel.bind (R := fun u v => wr h1.predNode y node = some u ∧ wr h2.predNode y node = some v)
        (fun u v e1 e2 => ⟨e1, e2⟩) fun u' v' _ _ hn => ?_
      refine ORel.bind (R := fun u v => wr h1.predArc y arc = some u ∧ wr h2.predArc y arc = some v)
        (fun u v e1 e2 => ⟨e1, e2⟩) fun u'' v'' _ _ ha => ORel.pure ?_
      exact h.update hf.1 hf.2 (set_timestamp e1) (set_timestamp e2) hq (by rw [wr_length hd.1, wr_length hd.2, h.path.dlen])
        (by rw [rd_wr_self hd.1, rd_wr_self hd.2]) (rd_wr_ne hd.1) (rd_wr_ne hd.2) (by rw [rd_wr_self hn.1, rd_wr_self hn.2])
        (rd_wr_ne hn.1) (rd_wr_ne hn.2) (fun _ => by rw [rd_wr_self ha.1, rd_wr_self ha.2]) (rd_wr_ne ha.1) (rd_wr_ne ha.2)
    · exact ORel.pure h

theorem Same.expand (h : Same n h1 h2) (side : ChSide) (node key : Nat) :
    ORel (Same n) (h1.expand side node key) (h2.expand side node key) := by
  unfold ChHalf.expand
  simp only [Option.bind_eq_bind]
  refine ORel.bind_eq rfl fun b _ _ => ORel.bind_eq rfl fun e _ _ => ?_
  exact ORel.forRange_const h fun i s t _ _ hst => hst.relaxArc side node key i

theorem Same.stallScan (h : Same n h1 h2) (side : ChSide) {node : Nat} (hn : h1.Flagged node) : ∀ k arc,
    ORel Eq (h1.stallScan side node k arc) (h2.stallScan side node k arc)
  | 0, _ => ORel.pure rfl
  | k + 1, arc => by
    unfold ChHalf.stallScan
    simp only [Option.bind_eq_bind]
    refine ORel.bind_eq rfl fun x _ _ => ORel.bind_eq (h.path.flags x) fun p hp _ => ?_
    cases p with
    | true =>
      simp only [if_true]
      refine ORel.bind_eq (h.path.dist x hp) fun dx _ _ => ORel.bind_eq rfl fun w _ _ => ORel.bind_eq (h.path.dist node hn) fun dn _ _ => ?_
      split
      · exact ORel.pure rfl
      · exact h.stallScan side hn k (arc + 1)
    | false =>
      simp only [Bool.false_eq_true, if_false]
      exact h.stallScan side hn k (arc + 1)

theorem Same.canStall (h : Same n h1 h2) (side : ChSide) {node : Nat} (hn : h1.Flagged node) :
    ORel Eq (h1.canStall side node) (h2.canStall side node) := by
  unfold ChHalf.canStall
  simp only [Option.bind_eq_bind]
  exact ORel.bind_eq rfl fun b _ _ => ORel.bind_eq rfl fun e _ _ => h.stallScan side hn _ _

theorem PathSame.meet (h : PathSame h1 h2) (best : Nat × Nat) (node key : Nat) :
    ORel Eq (h1.meet best node key) (h2.meet best node key) := by
  unfold ChHalf.meet
  simp only [Option.bind_eq_bind]
  refine ORel.bind_eq (h.flags node) fun p hp _ => ?_
  cases p with
  | true =>
    simp only [if_true]
    exact ORel.bind_eq (h.dist node hp) fun d _ _ => ORel.of_eq rfl
  | false => exact ORel.of_eq rfl

theorem Same.withQueue (h : Same n h1 h2) {q1 q2 : MinIDQueue} (hq : MinIDQueue.Same n h1.Flagged q1 q2) :
    Same n { h1 with queue := q1 } { h2 with queue := q2 } := ⟨⟨h.path.flags, h.path.lt1, h.path.lt2, h.path.dlen, h.path.dist, h.path.pn, h.path.pa⟩, hq⟩

theorem Same.settle (h : Same n h1 h2) {o1 o2 : ChHalf} (ho : PathSame o1 o2) (side opp : ChSide) (best : Nat × Nat) :
    ORel (fun a b => Same n a.1 b.1 ∧ a.2 = b.2) (ChHalf.settle side opp h1 o1 best) (ChHalf.settle side opp h2 o2 best) := by
  unfold ChHalf.settle
  simp only [Option.bind_eq_bind]
  refine ORel.bind h.queue.pop fun a b _ _ hab => ?_
  obtain ⟨a1, a2⟩ := a
  obtain ⟨b1, b2⟩ := b
  obtain ⟨hq, e, hS⟩ := hab
  dsimp only at hq e hS ⊢
  subst e
  have hw := h.withQueue hq
  refine ORel.bind (ho.meet best a2.id a2.key) fun m1 m2 _ _ e => ?_
  subst e
  refine ORel.bind (hw.canStall opp hS) fun s1 s2 _ _ e => ?_
  subst e
  split
  · exact ORel.pure ⟨hw, rfl⟩
  · exact ORel.bind (hw.expand side _ _) fun x y _ _ hxy => ORel.pure ⟨hxy, rfl⟩

theorem Same.finished (h : Same n h1 h2) (best : Nat) : h1.finished best = h2.finished best := by
  unfold ChHalf.finished
  rw [h.queue.empty, h.queue.peek]

theorem Same.fullSearch (side : ChSide) : ∀ (fuel : Nat) {h1 h2 : ChHalf}, Same n h1 h2 →
    ORel (Same n) (ChHalf.fullSearch side fuel h1) (ChHalf.fullSearch side fuel h2)
  | 0, _, _, _ => fun _ _ e => by cases e
  | fuel + 1, h1, h2, h => by
    unfold ChHalf.fullSearch
    rw [← h.queue.empty]
    split
    · exact ORel.pure h
    · simp only [Option.bind_eq_bind]
      refine ORel.bind h.queue.pop fun a b _ _ hab => ?_
      obtain ⟨a1, a2⟩ := a
      obtain ⟨b1, b2⟩ := b
      obtain ⟨hq, e, hS⟩ := hab
      dsimp only at hq e hS ⊢
      subst e
      exact ORel.bind ((h.withQueue hq).expand side _ _) fun x y _ _ hxy => hxy.fullSearch side fuel

/-- Path extraction. -/
theorem PathSame.chain (h : PathSame h1 h2) : ∀ fuel x, ORel Eq (h1.chain fuel x) (h2.chain fuel x)
  | 0, _ => fun _ _ e => by cases e
  | fuel + 1, x => by
    unfold ChHalf.chain
    simp only [Option.bind_eq_bind]
    refine ORel.bind (R := fun p q => rd h1.predNode x = some p ∧ rd h2.predNode x = some q) (fun p q e1 e2 => ⟨e1, e2⟩)
      fun p q _ _ hpq => ?_
    by_cases hF : h1.Flagged x
    · have : p = q := by
        have := h.pn x hF
        rw [hpq.1, hpq.2] at this
        cases this; rfl
      subst this
      split
      · exact ORel.pure rfl
      · rename_i hne
        refine ORel.bind_eq (h.flags x) fun b _ _ => ORel.check fun _ _ => ORel.check fun _ _ => ?_
        refine ORel.bind_eq (h.pa x hF (by rw [hpq.1]; simpa using hne)) fun a _ _ => ?_
        refine ORel.bind (h.chain fuel p) fun r s _ _ e => ?_
        subst e; exact ORel.pure rfl
    · have hF2 : ¬ h2.pushed.isSet x = some true := by rw [← h.flags x]; exact hF
      intro r s e1 e2
      have hp : p = invalidId := by
        by_contra hc
        simp only [hc, if_false, Option.bind_eq_some_iff, check_eq_some] at e1
        obtain ⟨b, hb, _, rfl, _⟩ := e1
        exact hF hb
      have hq : q = invalidId := by
        by_contra hc
        simp only [hc, if_false, Option.bind_eq_some_iff, check_eq_some] at e2
        obtain ⟨b, hb, _, rfl, _⟩ := e2
        exact hF2 hb
      simp only [hp, if_true, Option.some.injEq] at e1
      simp only [hq, if_true, Option.some.injEq] at e2
      rw [← e1, ← e2]

/-! ### Pinned nodes -/

/-- The lists of selected nodes and of targets agree. -/
structure ListSame (k m : Nat) (h1 h2 : ChHalf) : Prop where
  sel : ∀ j, j < k → rd h1.dist j = rd h2.dist j
  tgt : ∀ j, j < m → rd h1.predNode j = rd h2.predNode j

theorem rd_reverseRange {v w : List Nat} {k : Nat} (h : ∀ j, j < k → rd v j = rd w j) (hv : k ≤ v.length) (hw : k ≤ w.length) :
    ∀ j, j < k → rd (reverseRange v 0 k) j = rd (reverseRange w 0 k) j := by
  have : v.take k = w.take k := by
    refine list_ext_rd (by simp; omega) fun i hi => ?_
    simp at hi
    have := h i (by omega)
    unfold rd at this ⊢
    simp only [List.getElem?_take, show i < k by omega, if_true]
    exact this
  intro j hj
  unfold reverseRange rd
  rw [this]
  simp only [List.take_zero, List.nil_append, List.drop_zero]
  rw [List.getElem?_append_left (by simp; omega), List.getElem?_append_left (by simp; omega)]

theorem pinNode_same (rank targets : List Nat) {i : Nat} {a b : List Nat × MinIDQueue} (hl : ∀ j, j < i → rd a.1 j = rd b.1 j)
    (hq : MinIDQueue.Same n (fun _ => True) a.2 b.2) :
    ORel (fun a b => (∀ j, j < i + 1 → rd a.1 j = rd b.1 j) ∧ MinIDQueue.Same n (fun _ => True) a.2 b.2)
      (pinNode rank targets a i) (pinNode rank targets b i) := by
  unfold pinNode
  simp only [Option.bind_eq_bind]
  refine ORel.bind_eq rfl fun t _ _ => ORel.bind_eq rfl fun t _ _ => ?_
  refine ORel.bind (R := fun u v => ∀ j, j < i + 1 → rd u j = rd v j) ?_ fun u v _ _ huv => ?_
  · intro u v e1 e2 j hj
    rw [rd_wr e1, rd_wr e2]
    split
    · rfl
    · exact hl j (by omega)
  refine ORel.bind_eq (hq.containsId t) fun c _ _ => ?_
  cases c with
  | true => exact ORel.pure ⟨huv, hq⟩
  | false =>
    simp only [Bool.false_eq_true, if_false]
    exact ORel.bind (hq.push trivial) fun x y _ _ hxy => ORel.pure ⟨huv, hxy⟩

theorem pinLoop_same (side : ChSide) : ∀ (fuel : Nat) {q1 q2 : MinIDQueue} {s1 s2 : List Nat} {k : Nat},
    MinIDQueue.Same n (fun _ => True) q1 q2 → (∀ j, j < k → rd s1 j = rd s2 j) → k ≤ s1.length → k ≤ s2.length →
    ORel (fun a b => a.2.2 = b.2.2 ∧ (∀ j, j < a.2.2 → rd a.2.1 j = rd b.2.1 j) ∧ a.2.2 ≤ a.2.1.length ∧ a.2.2 ≤ b.2.1.length)
      (pinLoop side fuel q1 s1 k) (pinLoop side fuel q2 s2 k)
  | 0, _, _, _, _, _, _, _, _, _ => fun _ _ e => by cases e
  | fuel + 1, q1, q2, s1, s2, k, hq, hs, l1, l2 => by
    unfold pinLoop
    rw [← hq.empty]
    split
    · exact ORel.pure ⟨rfl, hs, l1, l2⟩
    · simp only [Option.bind_eq_bind]
      refine ORel.bind hq.pop fun a b _ _ hab => ?_
      obtain ⟨a1, a2⟩ := a
      obtain ⟨b1, b2⟩ := b
      obtain ⟨hq', e, _⟩ := hab
      dsimp only at hq' e ⊢
      subst e
      refine ORel.bind (R := fun u v => (∀ j, j < k + 1 → rd u j = rd v j) ∧ k + 1 ≤ u.length ∧ k + 1 ≤ v.length) ?_ fun u v _ _ huv => ?_
      · intro u v e1 e2
        refine ⟨fun j hj => ?_, ?_, ?_⟩
        · rw [rd_wr e1, rd_wr e2]
          split
          · rfl
          · exact hs j (by omega)
        · rw [wr_length e1]; exact (wr_eq_some.1 e1).1
        · rw [wr_length e2]; exact (wr_eq_some.1 e2).1
      refine ORel.bind_eq rfl fun b _ _ => ORel.bind_eq rfl fun e _ _ => ?_
      refine ORel.bind (R := MinIDQueue.Same n (fun _ => True)) ?_ fun x y _ _ hxy => ?_
      · refine ORel.forRange_const hq' fun i s t _ _ hst => ?_
        unfold pinArc
        simp only [Option.bind_eq_bind]
        refine ORel.bind_eq rfl fun y _ _ => ORel.check fun _ _ => ?_
        refine ORel.bind_eq (hst.containsId y) fun c _ _ => ?_
        cases c with
        | true => exact ORel.pure hst
        | false =>
          simp only [Bool.false_eq_true, if_false]
          exact hst.push trivial
      · exact pinLoop_same side fuel hxy huv.1 huv.2.1 huv.2.2

theorem pin_same (side : ChSide) (rank targets : List Nat) (hq : MinIDQueue.Same n (fun _ => True) h1.queue h2.queue) :
    ORel (fun a b => a.2 = b.2 ∧ ListSame a.2 targets.length a.1 b.1) (h1.pin side rank targets) (h2.pin side rank targets) := by
  unfold pin
  simp only [Option.bind_eq_bind]
  refine ORel.bind (ORel.forRange (R := fun i (a b : List Nat × MinIDQueue) => (∀ j, j < i → rd a.1 j = rd b.1 j) ∧
      MinIDQueue.Same n (fun _ => True) a.2 b.2) (Nat.zero_le _) ⟨fun j hj => absurd hj (Nat.not_lt_zero _), hq⟩
      fun i s t _ _ hst => pinNode_same rank targets hst.1 hst.2) fun a b _ _ hab => ?_
  obtain ⟨l1, q1⟩ := a
  obtain ⟨l2, q2⟩ := b
  obtain ⟨hl, hq'⟩ := hab
  dsimp only at hl hq' ⊢
  refine ORel.bind (pinLoop_same side _ hq' (fun j hj => absurd hj (Nat.not_lt_zero _)) (Nat.zero_le _) (Nat.zero_le _)) fun c d _ _ hcd => ?_
  obtain ⟨q1', s1, k1⟩ := c
  obtain ⟨q2', s2, k2⟩ := d
  obtain ⟨e, hs, g1, g2⟩ := hcd
  dsimp only at e hs g1 g2 ⊢
  subst e
  exact ORel.pure ⟨rfl, rd_reverseRange hs g1 g2, hl⟩

/-- The situation after the first `i` selected nodes have been swept. -/
structure SweepSame (sel : List Nat) (i : Nat) (h1 h2 : ChHalf) : Prop where
  path : PathSame h1 h2
  dist : ∀ j x, j < i → rd sel j = some x → rd h1.dist x = rd h2.dist x
  pa : ∀ j x, j < i → rd sel j = some x → h1.pushed.isSet x = some false → rd h1.predArc x = rd h2.predArc x

theorem bestArc_none {O : ChSide} {dist : List Nat} {b e d : Nat} {s : Nat × Nat} (hbe : b ≤ e) (he : e ≤ invalidId)
    (h : forRange b e (d, invalidId) (bestArc O dist) = some s) : s.2 = invalidId → s.1 = d := by
  refine forRange_inv' (fun _ s => s.2 = invalidId → s.1 = d) hbe (fun _ => rfl) h ?_
  intro i s s' _ hi hs e'
  unfold bestArc at e'
  simp only [Option.bind_eq_bind, Option.bind_eq_some_iff] at e'
  obtain ⟨y, _, dy, _, w, _, e'⟩ := e'
  split at e'
  · cases e'
    intro hc
    dsimp only at hc
    omega
  · cases e'; exact hs

end ChHalf
end RK
