import Verif.Proof.ChSame
import Verif.Spec.ExtraWeight
/-! Helper lemmas: two query objects on contraction hierarchies in the same situation give the same answers. -/
namespace RK
open Spec

namespace ChHalf
variable {n : Nat} {h1 h2 : ChHalf} {O : ChSide} {sel sel2 : List Nat} {k : Nat}

/-! ### Sweeping down -/

theorem storeBest_same {i x d : Nat} (hx : rd sel i = some x) (h : SweepSame sel i h1 h2) {s : Nat × Nat}
    (hs : s.2 = invalidId → s.1 = d) (hd : h1.pushed.isSet x = some true ∨ d = infWeight) :
    ORel (SweepSame sel (i + 1)) (storeBest h1 x s) (storeBest h2 x s) := by
  unfold storeBest
  split
  · simp only [Option.bind_eq_bind]
    refine ORel.bind (R := fun u v => wr h1.dist x s.1 = some u ∧ wr h2.dist x s.1 = some v) (fun u v e1 e2 => ⟨e1, e2⟩) fun u v _ _ hd => ?_
    refine ORel.bind (R := fun u v => wr h1.predArc x s.2 = some u ∧ wr h2.predArc x s.2 = some v) (fun u v e1 e2 => ⟨e1, e2⟩)
      fun a b _ _ ha => ?_
    intro r1 r2 e1 e2
    simp only [Option.bind_eq_some_iff] at e1 e2
    obtain ⟨f1, ef1, e1⟩ := e1
    obtain ⟨f2, ef2, e2⟩ := e2
    cases e1; cases e2
    have g1 := TimestampFlags.isSet_resetOne h.path.lt1 ef1
    have g2 := TimestampFlags.isSet_resetOne h.path.lt2 ef2
    have hne : ∀ y, f1.isSet y = some true → y ≠ x ∧ h1.Flagged y := by
      intro y hy
      rw [g1] at hy
      split at hy
      · cases hy
      · rename_i hne; exact ⟨hne, hy⟩
    have t1 : f1.currentTimestamp = h1.pushed.currentTimestamp := by
      simp only [TimestampFlags.resetOne, Option.bind_eq_bind, Option.bind_eq_some_iff] at ef1
      obtain ⟨l, _, e⟩ := ef1; cases e; rfl
    have t2 : f2.currentTimestamp = h2.pushed.currentTimestamp := by
      simp only [TimestampFlags.resetOne, Option.bind_eq_bind, Option.bind_eq_some_iff] at ef2
      obtain ⟨l, _, e⟩ := ef2; cases e; rfl
    refine ⟨⟨?_, by rw [t1]; exact h.path.lt1, by rw [t2]; exact h.path.lt2, by rw [wr_length hd.1, wr_length hd.2, h.path.dlen], ?_, ?_, ?_⟩, ?_, ?_⟩
    · intro y
      rw [g1, g2]
      split
      · rfl
      · exact h.path.flags y
    · intro y hy
      obtain ⟨hyx, hy⟩ := hne y hy
      simp only [rd_wr_ne hd.1 y hyx, rd_wr_ne hd.2 y hyx]
      exact h.path.dist y hy
    · intro y hy
      exact h.path.pn y (hne y hy).2
    · intro y hy hp
      obtain ⟨hyx, hy⟩ := hne y hy
      simp only [rd_wr_ne ha.1 y hyx, rd_wr_ne ha.2 y hyx]
      exact h.path.pa y hy hp
    · intro j y hj hy
      by_cases e : y = x
      · subst e; simp only [rd_wr_self hd.1, rd_wr_self hd.2]
      · simp only [rd_wr_ne hd.1 y e, rd_wr_ne hd.2 y e]
        refine h.dist j y ?_ hy
        by_contra hc
        have : j = i := by omega
        subst this
        rw [hx] at hy; cases hy; exact e rfl
    · intro j y hj hy hF
      by_cases e : y = x
      · subst e; simp only [rd_wr_self ha.1, rd_wr_self ha.2]
      · simp only [rd_wr_ne ha.1 y e, rd_wr_ne ha.2 y e]
        refine h.pa j y ?_ hy ?_
        · by_contra hc
          have : j = i := by omega
          subst this
          rw [hx] at hy; cases hy; exact e rfl
        · dsimp only at hF
          rw [g1, if_neg e] at hF; exact hF
  · split
    · simp only [Option.bind_eq_bind]
      refine ORel.bind (R := fun u v => wr h1.dist x infWeight = some u ∧ wr h2.dist x infWeight = some v) (fun u v e1 e2 => ⟨e1, e2⟩) fun u v _ _ hd => ?_
      refine ORel.bind (R := fun u v => wr h1.predArc x invalidId = some u ∧ wr h2.predArc x invalidId = some v) (fun u v e1 e2 => ⟨e1, e2⟩)
        fun a b _ _ ha => ORel.pure ?_
      refine ⟨⟨h.path.flags, h.path.lt1, h.path.lt2, by rw [wr_length hd.1, wr_length hd.2, h.path.dlen], ?_, h.path.pn, ?_⟩, ?_, ?_⟩
      · intro y hy
        by_cases e : y = x
        · subst e; simp only [rd_wr_self hd.1, rd_wr_self hd.2]
        · simp only [rd_wr_ne hd.1 y e, rd_wr_ne hd.2 y e]
          exact h.path.dist y hy
      · intro y hy hp
        by_cases e : y = x
        · subst e; simp only [rd_wr_self ha.1, rd_wr_self ha.2]
        · simp only [rd_wr_ne ha.1 y e, rd_wr_ne ha.2 y e]
          exact h.path.pa y hy hp
      · intro j y hj hy
        by_cases e : y = x
        · subst e; simp only [rd_wr_self hd.1, rd_wr_self hd.2]
        · simp only [rd_wr_ne hd.1 y e, rd_wr_ne hd.2 y e]
          refine h.dist j y ?_ hy
          by_contra hc
          have : j = i := by omega
          subst this
          rw [hx] at hy; cases hy; exact e rfl
      · intro j y hj hy hF
        by_cases e : y = x
        · subst e; simp only [rd_wr_self ha.1, rd_wr_self ha.2]
        · simp only [rd_wr_ne ha.1 y e, rd_wr_ne ha.2 y e]
          refine h.pa j y ?_ hy hF
          by_contra hc
          have : j = i := by omega
          subst this
          rw [hx] at hy; cases hy; exact e rfl
    · rename_i hs1 hs2
      have hF : h1.pushed.isSet x = some true := by
        refine hd.resolve_right ?_
        rw [← hs (by simpa using hs1)]; exact hs2
      refine ORel.pure ⟨h.path, ?_, ?_⟩
      · intro j y hj hy
        by_cases e : y = x
        · subst e; exact h.path.dist y hF
        · refine h.dist j y ?_ hy
          by_contra hc
          have : j = i := by omega
          subst this
          rw [hx] at hy; cases hy; exact e rfl
      · intro j y hj hy hF'
        by_cases e : y = x
        · subst e; rw [hF] at hF'; cases hF'
        · refine h.pa j y ?_ hy hF'
          by_contra hc
          have : j = i := by omega
          subst this
          rw [hx] at hy; cases hy; exact e rfl

theorem pinnedStep_same (hO : UpSide n O) (hsel : SelOk n O sel k) (hl : ∀ j, j < k → rd sel j = rd sel2 j) {i : Nat} (hi : i < k)
    (h : SweepSame sel i h1 h2) : ORel (SweepSame sel (i + 1)) (pinnedStep O sel h1 i) (pinnedStep O sel2 h2 i) := by
  unfold pinnedStep
  simp only [Option.bind_eq_bind]
  refine ORel.bind_eq (hl i hi) fun x hx _ => ?_
  have hfx : fn sel i = x := fn_of_rd hx
  have hxn : x < n := by rw [← hfx]; exact hsel.lt i hi
  have hup : ∀ y w, O.R x y w → ∃ j, j < i ∧ rd sel j = some y := by
    intro y w hR
    obtain ⟨j, hj, hy⟩ := hsel.closed i y w hi (by rw [hfx]; exact hR)
    have hlt := (hO.up _ _ _ hR).1
    refine ⟨j, ?_, by rw [← hy]; exact rd_fn (by have := hsel.len; have := hsel.k_le; omega)⟩
    by_contra hc
    rcases Nat.lt_or_eq_of_le (Nat.le_of_not_lt hc) with hc | hc
    · have := hsel.desc i j hc hj; omega
    · subst hc; omega
  refine ORel.bind (R := fun d d' => d = d' ∧ (h1.pushed.isSet x = some true ∨ d = infWeight)) ?_ fun d d' _ _ hdd => ?_
  · unfold startDist
    simp only [Option.bind_eq_bind]
    refine ORel.bind_eq (h.path.flags x) fun p hp _ => ?_
    cases p with
    | true =>
      simp only [if_true]
      intro u v e1 e2
      rw [h.path.dist x hp, e2] at e1
      cases e1
      exact ⟨rfl, Or.inl hp⟩
    | false => exact ORel.pure ⟨rfl, Or.inr rfl⟩
  obtain ⟨rfl, hdF⟩ := hdd
  refine ORel.bind_eq rfl fun b hb _ => ORel.bind_eq rfl fun e he _ => ?_
  obtain ⟨b', e', hb', he', hbe, hel⟩ := hO.ok.csr.range hxn
  have e1 : some b = some b' := hb.symm.trans hb'
  have e2 : some e = some e' := he.symm.trans he'
  cases e1; cases e2
  refine ORel.bind (R := Eq) ?_ fun s s' es _ hss => ?_
  · refine ORel.forRange_const rfl fun j s t hj1 hj2 hst => ?_
    subst hst
    obtain ⟨y, w, hy, hw, hA⟩ := hO.rd_arc (x := x) (a := j) ⟨b, e, hb', he', hj1, hj2⟩
    obtain ⟨l, hl', hly⟩ := hup y w ⟨j, hA⟩
    unfold bestArc
    simp only [hy, hw, Option.bind_eq_bind, Option.bind_some]
    exact ORel.bind_eq (h.dist l y hl' hly) fun dy _ _ => ORel.of_eq rfl
  · subst hss
    exact storeBest_same hx h (bestArc_none hbe (by have := hO.ok.size; omega) es) hdF

theorem pinnedRun_same (side : ChSide) (hO : UpSide n O) (hsel : SelOk n O sel k) (hl : ∀ j, j < k → rd sel j = rd sel2 j)
    (h : Same n h1 h2) : ORel (SweepSame sel k) (pinnedRun side O sel k h1) (pinnedRun side O sel2 k h2) := by
  unfold pinnedRun
  simp only [Option.bind_eq_bind]
  rw [← h.path.dlen]
  refine ORel.bind (h.fullSearch side _) fun a b _ _ hab => ?_
  exact ORel.forRange (R := SweepSame sel) (Nat.zero_le _)
    ⟨hab.path, fun j _ hj => absurd hj (Nat.not_lt_zero j), fun j _ hj => absurd hj (Nat.not_lt_zero j)⟩
    fun i s t _ hi hst => pinnedStep_same hO hsel hl hi hst

theorem climb_same {S : ChSide} {src : List (Nat × Nat)} (hO : UpSide n O) (hsel : SelOk n O sel k) (hR : PinnedRan n S O src sel k h1)
    (h : SweepSame sel k h1 h2) : ∀ fuel j x, j < k → rd sel j = some x → ORel Eq (climb O h1 fuel x) (climb O h2 fuel x)
  | 0, _, _, _, _ => fun _ _ e => by cases e
  | fuel + 1, j, x, hj, hx => by
    unfold climb
    simp only [Option.bind_eq_bind]
    refine ORel.bind_eq (h.path.flags x) fun p hp _ => ?_
    cases p with
    | true => exact ORel.pure rfl
    | false =>
      simp only [Bool.false_eq_true, if_false]
      refine ORel.bind_eq (h.pa j x hj hx hp) fun a ha _ => ?_
      refine ORel.bind_eq rfl fun y hy _ => ORel.check fun _ _ => ?_
      obtain ⟨h0, P0, P, hd⟩ := hR
      have hfx : fn sel j = x := fn_of_rd hx
      have hin : ∃ j', j' < k ∧ fn sel j' = y := by
        have hPx : P x = false := by
          have := hd.sweep.flags.isSet (i := x) (by rw [← hfx]; exact hsel.lt j hj)
          rw [hp] at this; exact (Option.some.inj this).symm
        have := hd.sweep.swept j hj
        rw [hfx] at this
        cases this with
        | up hP _ _ _ _ => rw [hPx] at hP; cases hP
        | down hP a' y' w hA ha' _ _ _ _ =>
          rw [fn_of_rd ha] at ha'
          subst ha'
          have : some y = some y' := hy.symm.trans hA.2.1
          cases this
          exact hsel.closed j y w hj (by rw [hfx]; exact ⟨a, hA⟩)
        | inf hP _ _ ha' _ =>
          rw [fn_of_rd ha] at ha'
          subst ha'
          have := rd_some_lt hy
          have := hO.ok.size
          omega
      obtain ⟨j', hj', hy'⟩ := hin
      exact climb_same hO hsel ⟨h0, P0, P, hd⟩ h fuel j' y hj'
        (by rw [← hy']; exact rd_fn (by have := hsel.len; have := hsel.k_le; omega))

theorem usedSource_same {S : ChSide} {src : List (Nat × Nat)} (hO : UpSide n O) (hsel : SelOk n O sel k) (hR : PinnedRan n S O src sel k h1)
    (h : SweepSame sel k h1 h2) (order : List Nat) {j x : Nat} (hj : j < k) (hx : rd sel j = some x) :
    ORel Eq (usedSource O order h1 x) (usedSource O order h2 x) := by
  unfold usedSource
  simp only [Option.bind_eq_bind]
  rw [← h.path.dlen]
  have key : ORel Eq ((climb O h1 (h1.dist.length + 1) x).bind fun y => (chain h1 (h1.dist.length + 1) y).bind fun r => rd order r.2)
      ((climb O h2 (h1.dist.length + 1) x).bind fun y => (chain h2 (h1.dist.length + 1) y).bind fun r => rd order r.2) := by
    refine ORel.bind (climb_same hO hsel hR h _ j x hj hx) fun y y' _ _ e => ?_
    subst e
    refine ORel.bind (h.path.chain _ y) fun r r' _ _ e => ?_
    subst e
    exact ORel.of_eq rfl
  refine ORel.bind_eq (h.path.flags x) fun p hp _ => ?_
  cases p with
  | true =>
    refine ORel.bind (R := fun _ _ => True) (fun _ _ _ _ => trivial) fun a b _ _ _ => ?_
    simp only [Bool.not_true, Bool.false_and, Bool.false_eq_true, if_false]
    exact key
  | false =>
    refine ORel.bind_eq (h.pa j x hj hx hp) fun a ha _ => ?_
    split
    · exact ORel.pure rfl
    · exact key

theorem lists_same {S : ChSide} {src : List (Nat × Nat)} {rank ts : List Nat} {p1 p2 : ChHalf} (hO : UpSide n O)
    (hp : Pinned n O rank ts p1 k) (hR : PinnedRan n S O src p1.dist k h1) (hl : ListSame k ts.length p1 p2)
    (h : SweepSame p1.dist k h1 h2) (order : List Nat) :
    ORel Eq (extractDistances p1.predNode ts.length h1.dist) (extractDistances p2.predNode ts.length h2.dist) ∧
    ORel Eq (usedSources O order h1 p1.predNode ts.length) (usedSources O order h2 p2.predNode ts.length) := by
  have hin : ∀ i r, i < ts.length → rd p1.predNode i = some r → ∃ j, j < k ∧ rd p1.dist j = some r := by
    intro i r hi hr
    obtain ⟨r', j, _, h2, h3, h4⟩ := hp.tgt i _ (rd_fn hi)
    rw [hr] at h2; cases h2
    exact ⟨j, h3, by rw [← h4]; exact rd_fn (by have := hp.sel.len; have := hp.sel.k_le; omega)⟩
  constructor
  · unfold extractDistances
    simp only [Option.bind_eq_bind]
    refine ORel.check fun _ _ => ORel.forRange_const rfl fun i s t _ hi hst => ?_
    subst hst
    refine ORel.bind_eq (hl.tgt i hi) fun r hr _ => ?_
    obtain ⟨j, hj, hjr⟩ := hin i r hi hr
    exact ORel.bind_eq (h.dist j r hj hjr) fun d _ _ => ORel.of_eq rfl
  · unfold usedSources
    simp only [Option.bind_eq_bind]
    refine ORel.check fun _ _ => ORel.forRange_const rfl fun i s t _ hi hst => ?_
    subst hst
    refine ORel.bind_eq (hl.tgt i hi) fun r hr _ => ?_
    obtain ⟨j, hj, hjr⟩ := hin i r hi hr
    refine ORel.bind (usedSource_same hO hp.sel hR h order hj hjr) fun u v _ _ e => ?_
    subst e
    exact ORel.of_eq rfl

end ChHalf

/-! ### Cleared halves -/

variable {n : Nat} {S O : ChSide} {src : List (Nat × Nat)} {h h1 h2 : ChHalf}

theorem Collecting.unflagged (hc : Collecting n S [] h) : TimestampFlags.Rep h.pushed n (fun _ => false) ∧ h.dist.length = n := by
  obtain ⟨P, m, hI, hu⟩ := hc
  have hP : ∀ N x, x < N → P x = false := by
    intro N
    induction N with
    | zero => intro x hx; omega
    | succ N ih =>
      intro x _
      by_contra hx
      have hx : P x = true := by simpa using hx
      rcases hI.why x hx with ⟨_, h2⟩ | ⟨p, _, _, _, _, _, h4, h5, _⟩
      · cases h2
      · exact hu p h4 h5
  have : P = fun _ => false := funext fun x => hP (x + 1) x (by omega)
  rw [← this]; exact ⟨hI.flags, hI.dlen⟩

theorem Collecting.same {S' : ChSide} (hc1 : Collecting n S [] h1) (hc2 : Collecting n S' [] h2) : ChHalf.Same n h1 h2 := by
  obtain ⟨f1, d1⟩ := hc1.unflagged
  obtain ⟨f2, d2⟩ := hc2.unflagged
  have no : ∀ x, ¬ h1.Flagged x := by
    intro x hx
    unfold ChHalf.Flagged at hx
    by_cases hxn : x < n
    · rw [f1.isSet hxn] at hx; cases hx
    · simp only [TimestampFlags.isSet, rd, List.getElem?_eq_none (l := h1.pushed.lastSeen) (i := x) (by rw [f1.len]; omega)] at hx
      cases hx
  exact ⟨⟨f1.same f2, f1.lt, f2.lt, by rw [d1, d2], fun x hx => absurd hx (no x), fun x hx => absurd hx (no x),
    fun x hx => absurd hx (no x)⟩, hc1.isEmpty.same hc2.isEmpty _⟩

/-! ### Query objects -/

/-- The parts of two query objects that agree in each mode. -/
def ChQuery.HalvesSame (n : Nat) (q1 q2 : ChQuery) : QMode → Prop
  | .collecting => ChHalf.Same n q1.fwd q2.fwd ∧ ChHalf.Same n q1.bwd q2.bwd
  | .ran => ChHalf.Same n q1.fwd q2.fwd ∧ ChHalf.Same n q1.bwd q2.bwd
  | .toTargets ts false => ChHalf.Same n q1.fwd q2.fwd ∧ ChHalf.ListSame q1.meeting ts.length q1.bwd q2.bwd
  | .toTargets ts true => ChHalf.SweepSame q1.bwd.dist q1.meeting q1.fwd q2.fwd ∧ ChHalf.ListSame q1.meeting ts.length q1.bwd q2.bwd
  | .toSources ts false => ChHalf.Same n q1.bwd q2.bwd ∧ ChHalf.ListSame q1.meeting ts.length q1.fwd q2.fwd
  | .toSources ts true => ChHalf.SweepSame q1.fwd.dist q1.meeting q1.bwd q2.bwd ∧ ChHalf.ListSame q1.meeting ts.length q1.fwd q2.fwd

/-- Two query objects in the same situation. -/
structure ChQuery.Same (s : QState) (q1 q2 : ChQuery) : Prop where
  rep1 : QRep q1 s
  rep2 : QRep q2 s
  ch : q1.ch = q2.ch
  meeting : q1.meeting = q2.meeting
  halves : ChQuery.HalvesSame s.graph.n q1 q2 s.mode

/-- The situation after a reset. -/
theorem ChQuery.Same.fresh {G : QGraph} {q1 q2 : ChQuery} (h1 : QRep q1 (QState.fresh G)) (h2 : QRep q2 (QState.fresh G))
    (hch : q1.ch = q2.ch) (hm : q1.meeting = q2.meeting) : ChQuery.Same (QState.fresh G) q1 q2 := by
  refine ⟨h1, h2, hch, hm, ?_⟩
  obtain ⟨c1, _, _, _, a1, b1⟩ := h1.ex
  obtain ⟨c2, _, _, _, a2, b2⟩ := h2.ex
  exact ⟨a1.same a2, b1.same b2⟩

theorem runLoop_same (ch : Ch) : ∀ (fuel : Nat) {f1 f2 b1 b2 : ChHalf} (best : Nat × Nat) (nxt : Bool),
    ChHalf.Same n f1 f2 → ChHalf.Same n b1 b2 →
    ORel (fun x y => ChHalf.Same n x.1 y.1 ∧ ChHalf.Same n x.2.1 y.2.1 ∧ x.2.2 = y.2.2)
      (ChQuery.runLoop ch fuel f1 b1 best nxt) (ChQuery.runLoop ch fuel f2 b2 best nxt)
  | 0, _, _, _, _, _, _, _, _ => fun _ _ e => by cases e
  | fuel + 1, f1, f2, b1, b2, best, nxt, hf, hb => by
    unfold ChQuery.runLoop
    simp only [Option.bind_eq_bind]
    refine ORel.bind_eq (hf.finished best.1) fun ff _ _ => ORel.bind_eq (hb.finished best.1) fun bf _ _ => ?_
    split
    · exact ORel.pure ⟨hf, hb, rfl⟩
    · split
      · refine ORel.bind (hf.settle hb.path _ _ best) fun x y _ _ hxy => ?_
        obtain ⟨x1, x2⟩ := x
        obtain ⟨y1, y2⟩ := y
        obtain ⟨h1, h2⟩ := hxy
        dsimp only at h1 h2 ⊢
        subst h2
        exact runLoop_same ch fuel _ _ h1 hb
      · refine ORel.bind (hb.settle hf.path _ _ best) fun x y _ _ hxy => ?_
        obtain ⟨x1, x2⟩ := x
        obtain ⟨y1, y2⟩ := y
        obtain ⟨h1, h2⟩ := hxy
        dsimp only at h1 h2 ⊢
        subst h2
        exact runLoop_same ch fuel _ _ hf h1

theorem pathPairs_same (ch : Ch) {q1 q2 : ChQuery} (hf : ChHalf.PathSame q1.fwd q2.fwd) (hb : ChHalf.PathSame q1.bwd q2.bwd)
    (hm : q1.meeting = q2.meeting) : ORel Eq (q1.pathPairs ch) (q2.pathPairs ch) := by
  unfold ChQuery.pathPairs
  simp only [Option.bind_eq_bind]
  rw [hm]
  refine ORel.bind (hf.chain _ _) fun r r' _ _ e => ?_
  subst e
  refine ORel.bind_eq rfl fun x _ _ => ORel.bind_eq rfl fun l _ _ => ?_
  refine ORel.bind (hb.chain _ _) fun r r' _ _ e => ?_
  subst e
  exact ORel.of_eq rfl

/-- The state after a call does not depend on the answer. -/
theorem qStep_state {H : Type} {s s1 s2 : QState} {op : QOp H} {o1 o2 : QOut} (h1 : QStep s op o1 s1) (h2 : QStep s op o2 s2) : s1 = s2 := by
  cases op
  case resetSource =>
    obtain ⟨t1, b1, m1, _, rfl⟩ := h1; obtain ⟨t2, b2, m2, _, rfl⟩ := h2
    rw [m1] at m2; cases m2; rfl
  case resetTarget =>
    obtain ⟨t1, b1, m1, _, rfl⟩ := h1; obtain ⟨t2, b2, m2, _, rfl⟩ := h2
    rw [m1] at m2; cases m2; rfl
  case runToPinnedTargets =>
    obtain ⟨t1, b1, m1, _, rfl⟩ := h1; obtain ⟨t2, b2, m2, _, rfl⟩ := h2
    rw [m1] at m2; cases m2; rfl
  case runToPinnedSources =>
    obtain ⟨t1, b1, m1, _, rfl⟩ := h1; obtain ⟨t2, b2, m2, _, rfl⟩ := h2
    rw [m1] at m2; cases m2; rfl
  case results => exact h1.1.trans h2.1.symm
  case resultsToTargets => exact h1.1.trans h2.1.symm
  case resultsToSources => exact h1.1.trans h2.1.symm
  case pinnedTargetCount => exact h1.1.trans h2.1.symm
  case pinnedSourceCount => exact h1.1.trans h2.1.symm
  all_goals exact h1.2.trans h2.2.symm

theorem reset_ch {q q' : ChQuery} (h : q.reset = some q') : q'.ch = q.ch ∧ q'.meeting = invalidId := by
  simp only [ChQuery.reset, Option.bind_eq_bind, Option.bind_eq_some_iff] at h
  obtain ⟨_, _, _, _, _, _, h⟩ := h
  cases h
  exact ⟨rfl, rfl⟩

theorem resetCh_ch {q q' : ChQuery} {ch : Ch} (h : q.resetCh ch = some q') : q'.ch = some ch ∧ q'.meeting = invalidId := by
  unfold ChQuery.resetCh at h
  split at h
  · simp only [Option.bind_eq_bind, Option.bind_eq_some_iff] at h
    obtain ⟨q1, h1, h⟩ := h
    cases h
    exact ⟨rfl, (reset_ch h1).2⟩
  · cases h; exact ⟨rfl, rfl⟩

theorem chCall_same {q1 q2 : ChQuery} {s : QState} {op : QOp Ch} (hS : ChQuery.Same s q1 q2)
    (hp : QPre HierOk (fun n k => k ≤ n) s op) :
    ∃ q1' q2' out s', chCall q1 op = some (q1', out) ∧ chCall q2 op = some (q2', out) ∧ QStep s op out s' ∧
      ChQuery.Same s' q1' q2' := by
  obtain ⟨q1', o1, s', e1, st1, r1⟩ := chCall_spec hS.rep1 hp
  obtain ⟨q2', o2, s2, e2, st2, r2⟩ := chCall_spec hS.rep2 hp
  obtain rfl := qStep_state st1 st2
  suffices hmain : o1 = o2 ∧ ChQuery.Same s' q1' q2' by
    obtain ⟨rfl, h⟩ := hmain
    exact ⟨q1', q2', o1, s', e1, e2, st1, h⟩
  obtain ⟨ch, hch1, hk, hm1⟩ := hS.rep1.ex
  have hch2 : q2.ch = some ch := by rw [← hS.ch]; exact hch1
  have hm2 : ModeRep s.graph.n ch (ranked ch.rank s.sources) (ranked ch.rank s.targets) q2 s.mode := by
    obtain ⟨ch', h1, _, h2⟩ := hS.rep2.ex
    rw [hch2] at h1; cases h1; exact h2
  have hH := hS.halves
  cases op with
  | reset =>
    simp only [chCall, Option.map_eq_some_iff] at e1 e2
    obtain ⟨a1, e1, h1⟩ := e1
    obtain ⟨a2, e2, h2⟩ := e2
    cases h1; cases h2
    obtain ⟨_, rfl⟩ := st1
    exact ⟨rfl, ChQuery.Same.fresh r1 r2 (by rw [(reset_ch e1).1, (reset_ch e2).1, hS.ch]) (by rw [(reset_ch e1).2, (reset_ch e2).2])⟩
  | attach c G =>
    simp only [chCall, Option.map_eq_some_iff] at e1 e2
    obtain ⟨a1, e1, h1⟩ := e1
    obtain ⟨a2, e2, h2⟩ := e2
    cases h1; cases h2
    obtain ⟨_, rfl⟩ := st1
    exact ⟨rfl, ChQuery.Same.fresh r1 r2 (by rw [(resetCh_ch e1).1, (resetCh_ch e2).1]) (by rw [(resetCh_ch e1).2, (resetCh_ch e2).2])⟩
  | addSource x d =>
    simp only [chCall, ChQuery.addSource, hch1, hch2, Option.map_eq_some_iff, Option.bind_eq_bind, Option.bind_some,
      Option.bind_eq_some_iff] at e1 e2
    obtain ⟨a1, ⟨_, _, _, _, f1, e1, g1⟩, h1⟩ := e1
    obtain ⟨a2, ⟨_, _, _, _, f2, e2, g2⟩, h2⟩ := e2
    cases g1; cases h1; cases g2; cases h2
    obtain ⟨_, rfl⟩ := st1
    refine ⟨rfl, r1, r2, rfl, hS.meeting, ?_⟩
    dsimp only
    rcases hp.2.2 with hmode | ⟨ts, hmode⟩
    · rw [hmode] at hH ⊢
      exact ⟨hH.1.addNode _ _ _ _ _ e1 e2, hH.2⟩
    · rw [hmode] at hH ⊢
      exact ⟨hH.1.addNode _ _ _ _ _ e1 e2, hH.2⟩
  | addTarget x d =>
    simp only [chCall, ChQuery.addTarget, hch1, hch2, Option.map_eq_some_iff, Option.bind_eq_bind, Option.bind_some,
      Option.bind_eq_some_iff] at e1 e2
    obtain ⟨a1, ⟨_, _, _, _, f1, e1, g1⟩, h1⟩ := e1
    obtain ⟨a2, ⟨_, _, _, _, f2, e2, g2⟩, h2⟩ := e2
    cases g1; cases h1; cases g2; cases h2
    obtain ⟨_, rfl⟩ := st1
    refine ⟨rfl, r1, r2, rfl, hS.meeting, ?_⟩
    dsimp only
    rcases hp.2.2 with hmode | ⟨ts, hmode⟩
    · rw [hmode] at hH ⊢
      exact ⟨hH.1, hH.2.addNode _ _ _ _ _ e1 e2⟩
    · rw [hmode] at hH ⊢
      exact ⟨hH.1.addNode _ _ _ _ _ e1 e2, hH.2⟩
  | run =>
    simp only [chCall, ChQuery.run, hch1, hch2, Option.map_eq_some_iff, Option.bind_eq_bind, Option.bind_some,
      Option.bind_eq_some_iff] at e1 e2
    obtain ⟨a1, ⟨_, _, _, _, _, _, f1, e1, g1⟩, h1⟩ := e1
    obtain ⟨a2, ⟨_, _, _, _, _, _, f2, e2, g2⟩, h2⟩ := e2
    cases g1; cases h1; cases g2; cases h2
    obtain ⟨_, rfl⟩ := st1
    rw [hp.1] at hH
    obtain ⟨k1, k2, k3⟩ := runLoop_same ch _ _ _ hH.1 hH.2 _ _ e1 e2
    exact ⟨rfl, r1, r2, rfl, by dsimp only; rw [k3], k1, k2⟩
  | results =>
    have hmode : s.mode = .ran := hp
    rw [hmode] at hH
    simp only [chCall, Option.bind_eq_bind, Option.bind_eq_some_iff] at e1 e2
    obtain ⟨d1, ed1, s1, es1, t1, et1, p1, ep1, n1, en1, g1⟩ := e1
    obtain ⟨d2, ed2, s2, es2, t2, et2, p2, ep2, n2, en2, g2⟩ := e2
    cases g1; cases g2
    obtain ⟨rfl, _⟩ := st1
    refine ⟨?_, hS⟩
    rw [hmode] at hm1
    obtain ⟨_, best, Pf, mf, Pb, mb, hme, hR, _⟩ := hm1
    have hF : q1.meeting ≠ invalidId → q1.fwd.Flagged q1.meeting ∧ q1.bwd.Flagged q1.meeting := by
      intro hne
      rcases hR.meeting with ⟨h1, _⟩ | ⟨_, h2, h3, _⟩
      · rw [hme] at hne; exact absurd h1 hne
      · obtain ⟨_, hf⟩ := hR.hf
        obtain ⟨_, hb⟩ := hR.hb
        have hmn := (hf.small _ h2).1
        unfold ChHalf.Flagged
        rw [hme, hf.flags.isSet hmn, hb.flags.isSet hmn, h2, h3]
        exact ⟨rfl, rfl⟩
    have k1 : d1 = d2 := by
      refine (?_ : ORel Eq q1.getDistance q2.getDistance) _ _ ed1 ed2
      unfold ChQuery.getDistance
      simp only [Option.bind_eq_bind, ← hS.meeting]
      refine ORel.check fun _ _ => ?_
      split
      · exact ORel.pure rfl
      · rename_i hne
        obtain ⟨hf, hb⟩ := hF hne
        exact ORel.bind_eq (hH.1.path.dist _ hf) fun a _ _ => ORel.bind_eq (hH.2.path.dist _ hb) fun b _ _ => ORel.pure rfl
    have k2 : s1 = s2 := by
      refine (?_ : ORel Eq q1.getUsedSource q2.getUsedSource) _ _ es1 es2
      unfold ChQuery.getUsedSource
      simp only [Option.bind_eq_bind, ← hS.meeting, ← hS.ch]
      refine ORel.bind_eq rfl fun c _ _ => ORel.check fun _ _ => ?_
      split
      · exact ORel.pure rfl
      · refine ORel.bind (hH.1.path.chain _ _) fun r r' _ _ e => ?_
        subst e; exact ORel.of_eq rfl
    have k3 : t1 = t2 := by
      refine (?_ : ORel Eq q1.getUsedTarget q2.getUsedTarget) _ _ et1 et2
      unfold ChQuery.getUsedTarget
      simp only [Option.bind_eq_bind, ← hS.meeting, ← hS.ch]
      refine ORel.bind_eq rfl fun c _ _ => ORel.check fun _ _ => ?_
      split
      · exact ORel.pure rfl
      · refine ORel.bind (hH.2.path.chain _ _) fun r r' _ _ e => ?_
        subst e; exact ORel.of_eq rfl
    have k4 : p1 = p2 := by
      refine (?_ : ORel Eq q1.getArcPath q2.getArcPath) _ _ ep1 ep2
      unfold ChQuery.getArcPath
      simp only [Option.bind_eq_bind, ← hS.meeting, ← hS.ch]
      refine ORel.bind_eq rfl fun c _ _ => ORel.check fun _ _ => ?_
      split
      · exact ORel.pure rfl
      · refine ORel.bind (pathPairs_same c hH.1.path hH.2.path hS.meeting) fun r r' _ _ e => ?_
        subst e; exact ORel.of_eq rfl
    have k5 : n1 = n2 := by
      refine (?_ : ORel Eq q1.getNodePath q2.getNodePath) _ _ en1 en2
      unfold ChQuery.getNodePath
      simp only [Option.bind_eq_bind, ← hS.meeting, ← hS.ch]
      refine ORel.bind_eq rfl fun c _ _ => ORel.check fun _ _ => ?_
      split
      · exact ORel.pure rfl
      · refine ORel.bind (pathPairs_same c hH.1.path hH.2.path hS.meeting) fun r r' _ _ e => ?_
        subst e; exact ORel.of_eq rfl
    rw [k1, k2, k3, k4, k5]
  | pinTargets ts =>
    simp only [chCall, ChQuery.pinTargets, hch1, hch2, Option.map_eq_some_iff, Option.bind_eq_bind, Option.bind_some,
      Option.bind_eq_some_iff] at e1 e2
    obtain ⟨a1, ⟨_, _, _, _, f1, e1, g1⟩, h1⟩ := e1
    obtain ⟨a2, ⟨_, _, _, _, f2, e2, g2⟩, h2⟩ := e2
    cases g1; cases h1; cases g2; cases h2
    obtain ⟨_, rfl⟩ := st1
    rw [hp.1] at hH hm1 hm2
    obtain ⟨_, _, hb1⟩ := hm1
    obtain ⟨_, _, hb2⟩ := hm2
    rw [hp.2.1] at hb1 hb2
    obtain ⟨k1, k2⟩ := ChHalf.pin_same _ _ _ (hb1.isEmpty.same hb2.isEmpty _) _ _ e1 e2
    exact ⟨rfl, r1, r2, rfl, k1, hH.1, k2⟩
  | pinSources ts =>
    simp only [chCall, ChQuery.pinSources, hch1, hch2, Option.map_eq_some_iff, Option.bind_eq_bind, Option.bind_some,
      Option.bind_eq_some_iff] at e1 e2
    obtain ⟨a1, ⟨_, _, _, _, f1, e1, g1⟩, h1⟩ := e1
    obtain ⟨a2, ⟨_, _, _, _, f2, e2, g2⟩, h2⟩ := e2
    cases g1; cases h1; cases g2; cases h2
    obtain ⟨_, rfl⟩ := st1
    rw [hp.1] at hH hm1 hm2
    obtain ⟨_, hb1, _⟩ := hm1
    obtain ⟨_, hb2, _⟩ := hm2
    rw [hp.2.1] at hb1 hb2
    obtain ⟨k1, k2⟩ := ChHalf.pin_same _ _ _ (hb1.isEmpty.same hb2.isEmpty _) _ _ e1 e2
    exact ⟨rfl, r1, r2, rfl, k1, hH.2, k2⟩
  | resetSource =>
    simp only [chCall, ChQuery.resetSource, Option.map_eq_some_iff, Option.bind_eq_bind, Option.bind_eq_some_iff] at e1 e2
    obtain ⟨a1, ⟨_, _, _, _, f1, e1, g1⟩, h1⟩ := e1
    obtain ⟨a2, ⟨_, _, _, _, f2, e2, g2⟩, h2⟩ := e2
    cases g1; cases h1; cases g2; cases h2
    obtain ⟨ts, b, hmode, _, rfl⟩ := st1
    rw [hmode] at hH
    obtain ⟨_, _, _, k1⟩ := r1.ex
    obtain ⟨_, _, _, k2⟩ := r2.ex
    refine ⟨rfl, r1, r2, hS.ch, hS.meeting, Collecting.same k1.2.2.2 k2.2.2.2, ?_⟩
    cases b
    · exact hH.2
    · exact hH.2
  | resetTarget =>
    simp only [chCall, ChQuery.resetTarget, Option.map_eq_some_iff, Option.bind_eq_bind, Option.bind_eq_some_iff] at e1 e2
    obtain ⟨a1, ⟨_, _, _, _, f1, e1, g1⟩, h1⟩ := e1
    obtain ⟨a2, ⟨_, _, _, _, f2, e2, g2⟩, h2⟩ := e2
    cases g1; cases h1; cases g2; cases h2
    obtain ⟨ts, b, hmode, _, rfl⟩ := st1
    rw [hmode] at hH
    obtain ⟨_, _, _, k1⟩ := r1.ex
    obtain ⟨_, _, _, k2⟩ := r2.ex
    refine ⟨rfl, r1, r2, hS.ch, hS.meeting, Collecting.same k1.2.2.2 k2.2.2.2, ?_⟩
    cases b
    · exact hH.2
    · exact hH.2
  | runToPinnedTargets =>
    simp only [chCall, ChQuery.runToPinnedTargets, hch1, hch2, Option.map_eq_some_iff, Option.bind_eq_bind, Option.bind_some,
      Option.bind_eq_some_iff] at e1 e2
    obtain ⟨a1, ⟨_, _, _, _, f1, e1, g1⟩, h1⟩ := e1
    obtain ⟨a2, ⟨_, _, _, _, f2, e2, g2⟩, h2⟩ := e2
    cases g1; cases h1; cases g2; cases h2
    obtain ⟨ts, b, hmode, _, rfl⟩ := st1
    obtain ⟨⟨ts', hmode'⟩, _⟩ := hp
    rw [hmode] at hmode'; cases hmode'
    rw [hmode] at hH hm1
    rw [← hS.meeting] at e2
    exact ⟨rfl, r1, r2, rfl, hS.meeting, ChHalf.pinnedRun_same _ hk.q.b hm1.2.2.1.sel hH.2.sel hH.1 _ _ e1 e2, hH.2⟩
  | runToPinnedSources =>
    simp only [chCall, ChQuery.runToPinnedSources, hch1, hch2, Option.map_eq_some_iff, Option.bind_eq_bind, Option.bind_some,
      Option.bind_eq_some_iff] at e1 e2
    obtain ⟨a1, ⟨_, _, _, _, f1, e1, g1⟩, h1⟩ := e1
    obtain ⟨a2, ⟨_, _, _, _, f2, e2, g2⟩, h2⟩ := e2
    cases g1; cases h1; cases g2; cases h2
    obtain ⟨ts, b, hmode, _, rfl⟩ := st1
    obtain ⟨⟨ts', hmode'⟩, _⟩ := hp
    rw [hmode] at hmode'; cases hmode'
    rw [hmode] at hH hm1
    rw [← hS.meeting] at e2
    exact ⟨rfl, r1, r2, rfl, hS.meeting, ChHalf.pinnedRun_same _ hk.q.f hm1.2.2.1.sel hH.2.sel hH.1 _ _ e1 e2, hH.2⟩
  | resultsToTargets =>
    obtain ⟨ts, hmode, _⟩ := hp
    rw [hmode] at hH hm1 hm2
    simp only [chCall, ChQuery.getDistancesToTargets, ChQuery.getUsedSourcesToTargets, hch1, hch2, hm1.2.1, hm2.2.1, Option.bind_eq_bind,
      Option.bind_some, Option.bind_eq_some_iff] at e1 e2
    obtain ⟨d1, ⟨_, _, ed1⟩, u1, ⟨_, _, eu1⟩, g1⟩ := e1
    obtain ⟨d2, ⟨_, _, ed2⟩, u2, ⟨_, _, eu2⟩, g2⟩ := e2
    cases g1; cases g2
    obtain ⟨rfl, _⟩ := st1
    obtain ⟨k1, k2⟩ := ChHalf.lists_same hk.q.b hm1.2.2.1 hm1.2.2.2 hH.2 hH.1 ch.order
    exact ⟨by rw [k1 _ _ ed1 ed2, k2 _ _ eu1 eu2], hS⟩
  | resultsToSources =>
    obtain ⟨ts, hmode, _⟩ := hp
    rw [hmode] at hH hm1 hm2
    simp only [chCall, ChQuery.getDistancesToSources, ChQuery.getUsedTargetsToSources, hch1, hch2, hm1.2.1, hm2.2.1, Option.bind_eq_bind,
      Option.bind_some, Option.bind_eq_some_iff] at e1 e2
    obtain ⟨d1, ⟨_, _, ed1⟩, u1, ⟨_, _, eu1⟩, g1⟩ := e1
    obtain ⟨d2, ⟨_, _, ed2⟩, u2, ⟨_, _, eu2⟩, g2⟩ := e2
    cases g1; cases g2
    obtain ⟨rfl, _⟩ := st1
    obtain ⟨k1, k2⟩ := ChHalf.lists_same hk.q.f hm1.2.2.1 hm1.2.2.2 hH.2 hH.1 ch.order
    exact ⟨by rw [k1 _ _ ed1 ed2, k2 _ _ eu1 eu2], hS⟩
  | pinnedTargetCount =>
    simp only [chCall, Option.map_eq_some_iff] at e1 e2
    obtain ⟨_, _, h1⟩ := e1
    obtain ⟨_, _, h2⟩ := e2
    cases h1; cases h2
    obtain ⟨rfl, t1, b1, m1, k1⟩ := st1
    obtain ⟨_, t2, b2, m2, k2⟩ := st2
    rw [m1] at m2; cases m2
    exact ⟨k1.trans k2.symm, hS⟩
  | pinnedSourceCount =>
    simp only [chCall, Option.map_eq_some_iff] at e1 e2
    obtain ⟨_, _, h1⟩ := e1
    obtain ⟨_, _, h2⟩ := e2
    cases h1; cases h2
    obtain ⟨rfl, t1, b1, m1, k1⟩ := st1
    obtain ⟨_, t2, b2, m2, k2⟩ := st2
    rw [m1] at m2; cases m2
    exact ⟨k1.trans k2.symm, hS⟩

end RK
