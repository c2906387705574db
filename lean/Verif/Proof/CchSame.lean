import Verif.Proof.CchQuery
import Verif.Proof.ChSameQuery
/-! Helper lemmas: the answers of a query on a customizable contraction hierarchy do not depend on stale memory. -/
namespace RK
open Spec

/-- The predecessors of labelled nodes agree. -/
def PredSame (d p1 p2 : List Nat) : Prop := ∀ x v, rd d x = some v → v ≠ infWeight → rd p1 x = rd p2 x

theorem ORel.forDown {α β : Type} {R : α → β → Prop} {f : α → Nat → Option α} {g : β → Nat → Option β} : ∀ (k : Nat) {s : α} {t : β}, R s t →
    (∀ i s t, R s t → ORel R (f s i) (g t i)) → ORel R (forDown k s f) (RK.forDown k t g)
  | 0, _, _, h, _ => ORel.pure h
  | k + 1, _, _, h, hs => by
    unfold RK.forDown
    simp only [Option.bind_eq_bind]
    exact ORel.bind (hs k _ _ h) fun u v _ _ huv => ORel.forDown k huv hs

theorem ancestorLoop_same {α β : Type} {R : α → β → Prop} {f : α → Nat → Option α} {g : β → Nat → Option β} (parent : List Nat) (stop : Nat)
    (hs : ∀ i s t, R s t → ORel R (f s i) (g t i)) : ∀ (fuel x : Nat) {s : α} {t : β}, R s t →
    ORel R (ancestorLoop parent stop (fun s x => (f s x).map fun s => (s, true)) fuel x s)
      (ancestorLoop parent stop (fun s x => (g s x).map fun s => (s, true)) fuel x t)
  | 0, _, _, _, _ => fun _ _ e => by cases e
  | fuel + 1, x, s, t, h => by
    unfold ancestorLoop
    split
    · simp only [Option.bind_eq_bind]
      refine ORel.check fun _ _ => ?_
      refine ORel.bind (R := fun a b => R a.1 b.1 ∧ a.2 = true ∧ b.2 = true) ?_ fun a b _ _ hab => ?_
      · intro a b e1 e2
        rw [Option.map_eq_some_iff] at e1 e2
        obtain ⟨a', e1, rfl⟩ := e1
        obtain ⟨b', e2, rfl⟩ := e2
        exact ⟨hs x s t h _ _ e1 e2, rfl, rfl⟩
      obtain ⟨a1, a2⟩ := a
      obtain ⟨b1, b2⟩ := b
      obtain ⟨h1, h2, h3⟩ := hab
      dsimp only at h1 h2 h3 ⊢
      subst h2; subst h3
      simp only [if_true]
      exact ORel.bind_eq rfl fun p _ _ => ORel.check fun _ _ => ancestorLoop_same parent stop hs fuel p h1
    · exact ORel.pure h

theorem visit_same {α β : Type} {R : α → β → Prop} {f : α → Nat → Option α} {g : β → Nat → Option β} (parent : List Nat) {h1 h2 : CchHalf}
    (hn : h1.nodes = h2.nodes) (he : h1.ends = h2.ends) {s : α} {t : β} (h : R s t)
    (hs : ∀ i s t, R s t → ORel R (f s i) (g t i)) : ORel R (h1.visit parent s f) (h2.visit parent t g) := by
  unfold CchHalf.visit
  rw [← hn, ← he]
  refine ORel.forDown _ h fun i s t hst => ?_
  simp only [Option.bind_eq_bind]
  refine ORel.bind_eq rfl fun x _ _ => ORel.bind_eq rfl fun e _ _ => ?_
  unfold forAncestors' forAncestors
  simp only [Option.bind_eq_bind]
  exact ORel.check fun _ _ => ORel.check fun _ _ => ancestorLoop_same parent e hs _ x hst

namespace CchHalf

/-- Everything but the predecessors agrees. -/
structure CoreSame (h1 h2 : CchHalf) : Prop where
  dist : h1.dist = h2.dist
  inSpace : h1.inSpace = h2.inSpace
  nodes : h1.nodes = h2.nodes
  ends : h1.ends = h2.ends

structure Same (h1 h2 : CchHalf) : Prop where
  core : CoreSame h1 h2
  pred : PredSame h1.dist h1.pred h2.pred

variable {h1 h2 : CchHalf}

theorem PredSame.write {d d' p1 p2 p1' p2' : List Nat} {y v x : Nat} (h : PredSame d p1 p2) (hd : wr d y v = some d')
    (e1 : wr p1 y x = some p1') (e2 : wr p2 y x = some p2') : PredSame d' p1' p2' := by
  intro z u hz hu
  rw [rd_wr hd] at hz
  rw [rd_wr e1, rd_wr e2]
  split
  · rfl
  · rename_i hne
    rw [if_neg hne] at hz
    exact h z u hz hu

theorem addNode_core (hc : CoreSame h1 h2) (rank parent : List Nat) (ext d : Nat) :
    ORel CoreSame (h1.addNode rank parent ext d) (h2.addNode rank parent ext d) := by
  obtain ⟨a, b, c, e⟩ := hc
  unfold addNode
  simp only [Option.bind_eq_bind, ← a, ← b, ← c, ← e]
  refine ORel.bind_eq rfl fun s _ _ => ORel.bind_eq rfl fun ds _ _ => ?_
  split
  · refine ORel.bind_eq rfl fun dist _ _ => ORel.bind (R := fun _ _ => True) (fun _ _ _ _ => trivial) fun p p' _ _ _ => ?_
    exact ORel.bind_eq rfl fun r _ _ => ORel.pure ⟨rfl, rfl, rfl, rfl⟩
  · exact ORel.bind_eq rfl fun r _ _ => ORel.pure ⟨rfl, rfl, rfl, rfl⟩

theorem addNode_same (hc : Same h1 h2) (rank parent : List Nat) (ext : Nat) {d : Nat} (hd : d ≠ infWeight) :
    ORel Same (h1.addNode rank parent ext d) (h2.addNode rank parent ext d) := by
  obtain ⟨⟨a, b, c, e⟩, hp⟩ := hc
  unfold addNode
  simp only [Option.bind_eq_bind, ← a, ← b, ← c, ← e]
  refine ORel.bind_eq rfl fun s _ _ => ORel.bind_eq rfl fun ds hds _ => ?_
  split
  · refine ORel.bind_eq rfl fun dist hdist _ => ?_
    refine ORel.bind (R := fun u v => wr h1.pred s invalidId = some u ∧ wr h2.pred s invalidId = some v) (fun u v e1 e2 => ⟨e1, e2⟩)
      fun p p' _ _ hpp => ?_
    exact ORel.bind_eq rfl fun r _ _ => ORel.pure ⟨⟨rfl, rfl, rfl, rfl⟩, PredSame.write hp hdist hpp.1 hpp.2⟩
  · rename_i hne
    refine ORel.bind_eq rfl fun r hr _ => ORel.pure ⟨⟨rfl, rfl, rfl, rfl⟩, ?_⟩
    intro z u hz hu
    simp only [minTo, Option.bind_eq_bind, Option.bind_eq_some_iff] at hr
    obtain ⟨y, hy, hr⟩ := hr
    split at hr
    · dsimp only at hz
      rw [rd_wr hr] at hz
      split at hz
      · rename_i e'; subst e'
        exact hp z ds hds hne
      · exact hp z u hz hu
    · cases hr; exact hp z u hz hu

theorem relaxOut_same (fo head weight : List Nat) {s t : List Nat × List Nat} (h : s.1 = t.1 ∧ PredSame s.1 s.2 t.2) (x : Nat) :
    ORel (fun s t => s.1 = t.1 ∧ PredSame s.1 s.2 t.2) (relaxOut fo head weight wr s x) (relaxOut fo head weight wr t x) := by
  unfold relaxOut
  simp only [Option.bind_eq_bind]
  refine ORel.bind_eq rfl fun b _ _ => ORel.bind_eq rfl fun e _ _ => ORel.forRange_const h fun i s t _ _ hst => ?_
  obtain ⟨d1, p1⟩ := s
  obtain ⟨d2, p2⟩ := t
  obtain ⟨e1, e2⟩ := hst
  dsimp only at e1 e2
  subst e1
  unfold relaxOutArc
  simp only [Option.bind_eq_bind]
  refine ORel.bind_eq rfl fun y _ _ => ORel.bind_eq rfl fun dx _ _ => ORel.bind_eq rfl fun w _ _ => ORel.bind_eq rfl fun dy _ _ => ?_
  split
  · refine ORel.bind_eq rfl fun d hd _ => ?_
    refine ORel.bind (R := fun u v => wr p1 y x = some u ∧ wr p2 y x = some v) (fun u v e1 e2 => ⟨e1, e2⟩) fun u v _ _ huv => ?_
    exact ORel.pure ⟨rfl, PredSame.write e2 hd huv.1 huv.2⟩
  · exact ORel.pure ⟨rfl, e2⟩

theorem search_same (h : Same h1 h2) (c : Cch) (w : List Nat) : ORel Same (h1.search c w) (h2.search c w) := by
  unfold search
  simp only [Option.bind_eq_bind]
  refine ORel.bind (visit_same c.parent h.core.nodes h.core.ends (R := fun s t => s.1 = t.1 ∧ PredSame s.1 s.2 t.2)
    ⟨h.core.dist, h.pred⟩ fun i s t hst => relaxOut_same _ _ _ hst i) fun a b _ _ hab => ?_
  obtain ⟨a1, a2⟩ := a
  obtain ⟨b1, b2⟩ := b
  exact ORel.pure ⟨⟨hab.1, h.core.inSpace, h.core.nodes, h.core.ends⟩, hab.2⟩

theorem meetStep_same (c : Cch) (w : List Nat) (h : Same h1 h2) {s t : List Nat × List Nat × Nat × Nat}
    (hst : s.1 = t.1 ∧ PredSame s.1 s.2.1 t.2.1 ∧ s.2.2 = t.2.2) (x : Nat) :
    ORel (fun s t => s.1 = t.1 ∧ PredSame s.1 s.2.1 t.2.1 ∧ s.2.2 = t.2.2) (meetStep c w h1 s x) (meetStep c w h2 t x) := by
  unfold meetStep
  simp only [Option.bind_eq_bind]
  refine ORel.bind (relaxOut_same _ _ _ (s := (s.1, s.2.1)) (t := (t.1, t.2.1)) ⟨hst.1, hst.2.1⟩ x) fun a b _ _ hab => ?_
  obtain ⟨a1, a2⟩ := a
  obtain ⟨b1, b2⟩ := b
  obtain ⟨e1, e2⟩ := hab
  dsimp only at e1 e2
  subst e1
  refine ORel.bind_eq ?_ fun best _ _ => ORel.pure ⟨rfl, e2, rfl⟩
  unfold meet
  rw [h.core.inSpace, h.core.dist, hst.2.2]

theorem visit_congr {α : Type} (parent : List Nat) (hn : h1.nodes = h2.nodes) (he : h1.ends = h2.ends) (s : α) (f : α → Nat → Option α) :
    h1.visit parent s f = h2.visit parent s f := by
  unfold visit
  rw [hn, he]

theorem pinnedRun_core {t1 t2 : CchHalf} (h : CoreSame h1 h2) (ht : CoreSame t1 t2) (c : Cch) (fw bw : List Nat) :
    ORel (fun a b => CoreSame a.1 b.1 ∧ CoreSame a.2 b.2) (pinnedRun c fw bw h1 t1) (pinnedRun c fw bw h2 t2) := by
  unfold pinnedRun
  simp only [Option.bind_eq_bind]
  rw [visit_congr c.parent h.nodes h.ends, visit_congr c.parent ht.nodes ht.ends, h.dist, ht.dist]
  refine ORel.bind_eq rfl fun a _ _ => ORel.bind_eq rfl fun b _ _ => ORel.bind_eq rfl fun r _ _ => ?_
  exact ORel.pure ⟨⟨rfl, h.inSpace, h.nodes, h.ends⟩, ⟨rfl, ht.inSpace, ht.nodes, ht.ends⟩⟩

theorem pin_core (h : CoreSame h1 h2) (rank parent list : List Nat) : ORel CoreSame (h1.pin rank parent list) (h2.pin rank parent list) := by
  obtain ⟨a, b, c, e⟩ := h
  unfold pin
  simp only [Option.bind_eq_bind, ← b, ← c, ← e]
  exact ORel.bind_eq rfl fun r _ _ => ORel.pure ⟨a, rfl, rfl, rfl⟩

/-- Following predecessors of labelled nodes. -/
theorem chain_same {n : Nat} {D P : Nat → Nat} (h : Same h1 h2) (hd : Is h1.dist n D) (hp : Is h1.pred n P)
    (hl : ∀ x, x < n → D x < infWeight → P x = invalidId ∨ (P x < n ∧ D (P x) < infWeight)) :
    ∀ fuel x, x < n → D x < infWeight → h1.chain fuel x = h2.chain fuel x
  | 0, _, _, _ => rfl
  | fuel + 1, x, hx, hlt => by
    unfold chain
    have e := h.pred x (D x) (hd.2 x hx) (by omega)
    rw [← e, hp.2 x hx]
    simp only [Option.bind_eq_bind, Option.bind_some]
    split
    · rename_i hne
      obtain ⟨g1, g2⟩ := (hl x hx hlt).resolve_left hne
      rw [chain_same h hd hp hl fuel (P x) g1 g2]
    · rfl

end CchHalf

theorem cchCollecting_core {n : Nat} {c : Cch} {W W' : Nat → Nat} {h1 h2 : CchHalf} (hc1 : CchCollecting n c W [] h1)
    (hc2 : CchCollecting n c W' [] h2) : CchHalf.Same h1 h2 := by
  have key : ∀ {W : Nat → Nat} {h : CchHalf}, CchCollecting n c W [] h → h.nodes = [] ∧ h.ends = [] ∧ Is h.dist n noLabel ∧
      Flags n h.inSpace [] := by
    rintro W h ⟨L, D, P, ok, hi, h0⟩
    have hn := h0 rfl
    have hsp := ok.space
    rw [hn] at hsp
    obtain ⟨h3, rfl⟩ := hsp.of_nil
    exact ⟨hn, h3, (ok.congr fun x hx => hi.out x hx (by simp)).dist, ok.flags⟩
  obtain ⟨a1, a2, a3, a4⟩ := key hc1
  obtain ⟨b1, b2, b3, b4⟩ := key hc2
  refine ⟨⟨list_ext_rd (by rw [a3.1, b3.1]) fun i hi => ?_, list_ext_rd (by rw [a4.1, b4.1]) fun i hi => ?_, by rw [a1, b1], by rw [a2, b2]⟩, ?_⟩
  · rw [a3.1] at hi
    rw [a3.2 i hi, b3.2 i hi]
  · rw [a4.1] at hi
    rw [a4.2 i hi, b4.2 i hi]
  · intro x v hx hv
    have := rd_some_lt hx
    rw [a3.1] at this
    rw [a3.2 x this] at hx
    cases hx
    exact absurd rfl hv

/-- Two query objects in the same situation. -/
structure CchQuery.Same (heap : Nat → Cch) (s : QState) (q1 q2 : CchQuery) : Prop where
  rep1 : CchRep heap q1 s
  rep2 : CchRep heap q2 s
  on : q1.on = q2.on
  fwd : CchHalf.CoreSame q1.fwd q2.fwd
  bwd : CchHalf.CoreSame q1.bwd q2.bwd
  pred : s.mode = .collecting ∨ s.mode = .ran → PredSame q1.fwd.dist q1.fwd.pred q2.fwd.pred ∧ PredSame q1.bwd.dist q1.bwd.pred q2.bwd.pred
  meeting : s.mode = .ran → q1.meeting = q2.meeting

theorem cchSame_fresh {heap : Nat → Cch} {G : QGraph} {q1 q2 : CchQuery} (h1 : CchRep heap q1 (QState.fresh G))
    (h2 : CchRep heap q2 (QState.fresh G)) (hon : q1.on = q2.on) : CchQuery.Same heap (QState.fresh G) q1 q2 := by
  obtain ⟨o1, _, _, _, _, _, k1, _, _, _, a1, b1⟩ := h1.ex
  obtain ⟨o2, _, _, _, _, _, k2, _, _, _, a2, b2⟩ := h2.ex
  have : o1 = o2 := by rw [k1, k2] at hon; exact Option.some.inj hon
  subst this
  have hf := cchCollecting_core a1 a2
  have hb := cchCollecting_core b1 b2
  exact ⟨h1, h2, hon, hf.core, hb.core, fun _ => ⟨hf.pred, hb.pred⟩, fun h => by cases h⟩

theorem cchReset_on {q q' : CchQuery} (h : q.reset = some q') : q'.on = q.on := by
  simp only [CchQuery.reset, Option.bind_eq_bind, Option.bind_eq_some_iff] at h
  obtain ⟨on, hon, q1, h1, f, _, b, _, h⟩ := h
  cases h
  dsimp only
  unfold CchQuery.clearPinned at h1
  split at h1
  · simp only [Option.bind_eq_bind, Option.bind_eq_some_iff] at h1
    obtain ⟨_, _, h1⟩ := h1; cases h1; rfl
  · split at h1
    · simp only [Option.bind_eq_bind, Option.bind_eq_some_iff] at h1
      obtain ⟨_, _, h1⟩ := h1; cases h1; rfl
    · cases h1; rfl

theorem cchResetMetric_on {q q' : CchQuery} {h : CchHandle} (hh : q.resetMetric h = some q') : q'.on = some h := by
  simp only [CchQuery.resetMetric, Option.bind_eq_bind, Option.bind_eq_some_iff] at hh
  obtain ⟨on, _, hh⟩ := hh
  split at hh
  · exact cchReset_on hh
  · cases hh; rfl

theorem cchStep_state {H : Type} {s s1 s2 : QState} {op : QOp H} {o1 o2 : QOut} (h1 : CchStep s op o1 s1) (h2 : CchStep s op o2 s2) :
    s1 = s2 := by
  cases op with
  | resultsToTargets => exact h1.1.trans h2.1.symm
  | resultsToSources => exact h1.1.trans h2.1.symm
  | reset => exact qStep_state (s := s) (op := (QOp.reset : QOp H)) h1 h2
  | attach h G => exact qStep_state (s := s) (op := (QOp.attach h G : QOp H)) h1 h2
  | addSource x d => exact qStep_state (s := s) (op := (QOp.addSource x d : QOp H)) h1 h2
  | addTarget x d => exact qStep_state (s := s) (op := (QOp.addTarget x d : QOp H)) h1 h2
  | run => exact qStep_state (s := s) (op := (QOp.run : QOp H)) h1 h2
  | results => exact h1.1.trans h2.1.symm
  | pinTargets ts => exact qStep_state (s := s) (op := (QOp.pinTargets ts : QOp H)) h1 h2
  | pinSources ss => exact qStep_state (s := s) (op := (QOp.pinSources ss : QOp H)) h1 h2
  | resetSource => exact qStep_state (s := s) (op := (QOp.resetSource : QOp H)) h1 h2
  | resetTarget => exact qStep_state (s := s) (op := (QOp.resetTarget : QOp H)) h1 h2
  | runToPinnedTargets => exact qStep_state (s := s) (op := (QOp.runToPinnedTargets : QOp H)) h1 h2
  | runToPinnedSources => exact qStep_state (s := s) (op := (QOp.runToPinnedSources : QOp H)) h1 h2
  | pinnedTargetCount => exact qStep_state (s := s) (op := (QOp.pinnedTargetCount : QOp H)) h1 h2
  | pinnedSourceCount => exact qStep_state (s := s) (op := (QOp.pinnedSourceCount : QOp H)) h1 h2

theorem cchCall_same {heap : Nat → Cch} {q1 q2 : CchQuery} {s : QState} {op : QOp CchHandle} (hS : CchQuery.Same heap s q1 q2)
    (hp : CchPre (HandleFor heap) s op) :
    ∃ q1' q2' out s', cchCall q1 op = some (q1', out) ∧ cchCall q2 op = some (q2', out) ∧ CchStep s op out s' ∧
      CchQuery.Same heap s' q1' q2' := by
  obtain ⟨q1', o1, s', e1, st1, r1⟩ := cchCall_spec hS.rep1 hp
  obtain ⟨q2', o2, s2, e2, st2, r2⟩ := cchCall_spec hS.rep2 hp
  obtain rfl := cchStep_state st1 st2
  suffices hmain : o1 = o2 ∧ CchQuery.Same heap s' q1' q2' by
    obtain ⟨rfl, h⟩ := hmain
    exact ⟨q1', q2', o1, s', e1, e2, st1, h⟩
  obtain ⟨on, rt, rh, U, f, b, hon1, haddr, hk, hm1⟩ := hS.rep1.ex
  have hon2 : q2.on = some on := by rw [← hS.on]; exact hon1
  cases op with
  | reset =>
    simp only [cchCall, Option.map_eq_some_iff] at e1 e2
    obtain ⟨a1, e1, h1⟩ := e1
    obtain ⟨a2, e2, h2⟩ := e2
    cases h1; cases h2
    obtain ⟨_, rfl⟩ := st1
    exact ⟨rfl, cchSame_fresh r1 r2 (by rw [cchReset_on e1, cchReset_on e2, hS.on])⟩
  | attach c G =>
    simp only [cchCall, Option.map_eq_some_iff] at e1 e2
    obtain ⟨a1, e1, h1⟩ := e1
    obtain ⟨a2, e2, h2⟩ := e2
    cases h1; cases h2
    obtain ⟨_, rfl⟩ := st1
    exact ⟨rfl, cchSame_fresh r1 r2 (by rw [cchResetMetric_on e1, cchResetMetric_on e2])⟩
  | addSource x d =>
    simp only [cchCall, CchQuery.addSource, hon1, hon2, Option.map_eq_some_iff, Option.bind_eq_bind, Option.bind_some,
      Option.bind_eq_some_iff] at e1 e2
    obtain ⟨a1, ⟨_, _, _, _, f1, e1, g1⟩, h1⟩ := e1
    obtain ⟨a2, ⟨_, _, _, _, f2, e2, g2⟩, h2⟩ := e2
    cases g1; cases h1; cases g2; cases h2
    obtain ⟨_, rfl⟩ := st1
    refine ⟨rfl, r1, r2, rfl, CchHalf.addNode_core hS.fwd _ _ _ _ _ _ e1 e2, hS.bwd, fun hm => ?_, hS.meeting⟩
    obtain ⟨p1, p2⟩ := hS.pred hm
    exact ⟨(CchHalf.addNode_same ⟨hS.fwd, p1⟩ _ _ _ (by have := hp.2.1; rw [unreachable_eq] at this; omega) _ _ e1 e2).pred, p2⟩
  | addTarget x d =>
    simp only [cchCall, CchQuery.addTarget, hon1, hon2, Option.map_eq_some_iff, Option.bind_eq_bind, Option.bind_some,
      Option.bind_eq_some_iff] at e1 e2
    obtain ⟨a1, ⟨_, _, _, _, f1, e1, g1⟩, h1⟩ := e1
    obtain ⟨a2, ⟨_, _, _, _, f2, e2, g2⟩, h2⟩ := e2
    cases g1; cases h1; cases g2; cases h2
    obtain ⟨_, rfl⟩ := st1
    refine ⟨rfl, r1, r2, rfl, hS.fwd, CchHalf.addNode_core hS.bwd _ _ _ _ _ _ e1 e2, fun hm => ?_, hS.meeting⟩
    obtain ⟨p1, p2⟩ := hS.pred hm
    exact ⟨p1, (CchHalf.addNode_same ⟨hS.bwd, p2⟩ _ _ _ (by have := hp.2.1; rw [unreachable_eq] at this; omega) _ _ e1 e2).pred⟩
  | run =>
    have hmode : s.mode = .collecting := hp
    simp only [cchCall, CchQuery.run, hon1, hon2, Option.map_eq_some_iff, Option.bind_eq_bind, Option.bind_some,
      Option.bind_eq_some_iff] at e1 e2
    obtain ⟨a1, ⟨_, _, f1, e1, v1, w1, g1⟩, h1⟩ := e1
    obtain ⟨a2, ⟨_, _, f2, e2, v2, w2, g2⟩, h2⟩ := e2
    cases g1; cases h1; cases g2; cases h2
    obtain ⟨_, rfl⟩ := st1
    obtain ⟨p1, p2⟩ := hS.pred (Or.inl hmode)
    have hf := CchHalf.search_same ⟨hS.fwd, p1⟩ _ _ _ _ e1 e2
    obtain ⟨k1, k2, k3⟩ := visit_same on.cch.parent hS.bwd.nodes hS.bwd.ends
      (R := fun s t => s.1 = t.1 ∧ PredSame s.1 s.2.1 t.2.1 ∧ s.2.2 = t.2.2)
      ⟨hS.bwd.dist, p2, rfl⟩ (fun i s t hst => CchHalf.meetStep_same on.cch on.metric.backward hf hst i) _ _ w1 w2
    exact ⟨rfl, r1, r2, rfl, hf.core, ⟨k1, hS.bwd.inSpace, hS.bwd.nodes, hS.bwd.ends⟩, fun _ => ⟨hf.pred, k2⟩,
      fun _ => by dsimp only; rw [k3]⟩
  | results =>
    have hmode : s.mode = .ran := hp
    simp only [cchCall, Option.bind_eq_bind, Option.bind_eq_some_iff] at e1 e2
    obtain ⟨d1, ed1, s1, es1, t1, et1, p1, ep1, n1, en1, g1⟩ := e1
    obtain ⟨d2, ed2, s2, es2, t2, et2, p2, ep2, n2, en2, g2⟩ := e2
    cases g1; cases g2
    obtain ⟨rfl, _⟩ := (st1 : CchStep (H := CchHandle) s .results _ s')
    refine ⟨?_, hS⟩
    rw [hmode] at hm1
    obtain ⟨_, Ls, Lt, DF, PF, DB, PB, best, ok1, i1, ok2, i2, hb, hme⟩ := hm1
    obtain ⟨pf, pb⟩ := hS.pred (Or.inr hmode)
    have hmm := hS.meeting hmode
    have hup := hk.cus.ok.graph.up.up
    have lf : ∀ x, x < s'.graph.n → DF x < infWeight → PF x = invalidId ∨ (PF x < s'.graph.n ∧ DF (PF x) < infWeight) := by
      intro x hx hlt
      rcases i1.lab x hx hlt with ⟨h1, _⟩ | ⟨a, p, h1, _, h3, h4, h5⟩
      · exact Or.inl h1
      · have := (hup p x ⟨a, h3, h4⟩).1
        rw [h1]; exact Or.inr ⟨by omega, by omega⟩
    have lb : ∀ x, x < s'.graph.n → DB x < infWeight → PB x = invalidId ∨ (PB x < s'.graph.n ∧ DB (PB x) < infWeight) := by
      intro x hx hlt
      rcases i2.lab x hx hlt with ⟨h1, _⟩ | ⟨a, p, h1, _, h3, h4, h5⟩
      · exact Or.inl h1
      · have := (hup p x ⟨a, h3, h4⟩).1
        rw [h1]; exact Or.inr ⟨by omega, by omega⟩
    have cf : q1.meeting ≠ invalidId → ∀ fuel, q1.fwd.chain fuel q1.meeting = q2.fwd.chain fuel q1.meeting ∧
        q1.bwd.chain fuel q1.meeting = q2.bwd.chain fuel q1.meeting := by
      intro hne fuel
      rw [hme] at hne ⊢
      have hlt : best.1 < infWeight := by
        rcases Nat.lt_or_eq_of_le hb.le with h | h
        · exact h
        · exact absurd (hb.none_ h) hne
      obtain ⟨hmt, hms, hsum⟩ := hb.some_ hlt
      have hmn := ok1.lt hk.cus.tree _ hms
      exact ⟨CchHalf.chain_same ⟨hS.fwd, pf⟩ ok1.dist ok1.pred lf fuel _ hmn (by omega),
        CchHalf.chain_same ⟨hS.bwd, pb⟩ ok2.dist ok2.pred lb fuel _ hmn (by omega)⟩
    have k1 : q1.getDistance = q2.getDistance → d1 = d2 := fun e => by rw [ed1, ed2] at e; exact Option.some.inj e
    have k2 : q1.getUsedSource = q2.getUsedSource → s1 = s2 := fun e => by rw [es1, es2] at e; exact Option.some.inj e
    have k3 : q1.getUsedTarget = q2.getUsedTarget → t1 = t2 := fun e => by rw [et1, et2] at e; exact Option.some.inj e
    have k4 : q1.getArcPath = q2.getArcPath → p1 = p2 := fun e => by rw [ep1, ep2] at e; exact Option.some.inj e
    have k5 : q1.getNodePath = q2.getNodePath → n1 = n2 := fun e => by rw [en1, en2] at e; exact Option.some.inj e
    have hst : q1.state = q2.state := by
      obtain ⟨_, _, _, _, _, _, _, _, _, hm2⟩ := hS.rep2.ex
      obtain ⟨_, _, _, _, _, _, _, _, _, hm1⟩ := hS.rep1.ex
      rw [hmode] at hm1 hm2
      rw [hm1.1, hm2.1]
    rw [k1, k2, k3, k4, k5]
    · unfold CchQuery.getNodePath CchQuery.segments
      rw [← hS.on, ← hst, ← hmm, hon1]
      simp only [Option.bind_eq_bind, Option.bind_some]
      by_cases hne : q1.meeting = invalidId
      · simp only [hne, if_true]
      · simp only [hne, if_false, (cf hne _).1, (cf hne _).2]
    · unfold CchQuery.getArcPath CchQuery.segments
      rw [← hS.on, ← hst, ← hmm, hon1]
      simp only [Option.bind_eq_bind, Option.bind_some]
      by_cases hne : q1.meeting = invalidId
      · simp only [hne, if_true]
      · simp only [hne, if_false, (cf hne _).1, (cf hne _).2]
    · unfold CchQuery.getUsedTarget
      rw [← hS.on, ← hst, ← hmm, hon1]
      simp only [Option.bind_eq_bind, Option.bind_some]
      by_cases hne : q1.meeting = invalidId
      · simp only [hne, if_true]
      · simp only [hne, if_false, (cf hne _).2]
    · unfold CchQuery.getUsedSource
      rw [← hS.on, ← hst, ← hmm, hon1]
      simp only [Option.bind_eq_bind, Option.bind_some]
      by_cases hne : q1.meeting = invalidId
      · simp only [hne, if_true]
      · simp only [hne, if_false, (cf hne _).1]
    · unfold CchQuery.getDistance
      rw [← hst, ← hmm, hS.fwd.dist, hS.bwd.dist]
  | pinTargets ts =>
    simp only [cchCall, CchQuery.pinTargets, hon1, hon2, Option.map_eq_some_iff, Option.bind_eq_bind, Option.bind_some,
      Option.bind_eq_some_iff] at e1 e2
    obtain ⟨a1, ⟨_, _, f1, e1, g1⟩, h1⟩ := e1
    obtain ⟨a2, ⟨_, _, f2, e2, g2⟩, h2⟩ := e2
    cases g1; cases h1; cases g2; cases h2
    obtain ⟨_, rfl⟩ := st1
    exact ⟨rfl, r1, r2, rfl, hS.fwd, CchHalf.pin_core hS.bwd _ _ _ _ _ e1 e2, fun h => (by rcases h with h | h <;> cases h), fun h => by cases h⟩
  | pinSources ts =>
    simp only [cchCall, CchQuery.pinSources, hon1, hon2, Option.map_eq_some_iff, Option.bind_eq_bind, Option.bind_some,
      Option.bind_eq_some_iff] at e1 e2
    obtain ⟨a1, ⟨_, _, f1, e1, g1⟩, h1⟩ := e1
    obtain ⟨a2, ⟨_, _, f2, e2, g2⟩, h2⟩ := e2
    cases g1; cases h1; cases g2; cases h2
    obtain ⟨_, rfl⟩ := st1
    exact ⟨rfl, r1, r2, rfl, CchHalf.pin_core hS.fwd _ _ _ _ _ e1 e2, hS.bwd, fun h => (by rcases h with h | h <;> cases h), fun h => by cases h⟩
  | resetSource =>
    simp only [cchCall, CchQuery.resetSource, hon1, hon2, Option.map_eq_some_iff, Option.bind_eq_bind, Option.bind_some,
      Option.bind_eq_some_iff] at e1 e2
    obtain ⟨a1, ⟨_, _, f1, e1, x1, y1, g1⟩, h1⟩ := e1
    obtain ⟨a2, ⟨_, _, f2, e2, x2, y2, g2⟩, h2⟩ := e2
    cases g1; cases h1; cases g2; cases h2
    obtain ⟨ts, b, hmode, _, rfl⟩ := st1
    obtain ⟨c1, _, _, _, _, _, j1, _, _, k1⟩ := r1.ex
    obtain ⟨c2, _, _, _, _, _, j2, _, _, k2⟩ := r2.ex
    cases j1; cases j2
    exact ⟨rfl, r1, r2, rfl, (cchCollecting_core k1.2.2.1 k2.2.2.1).core, hS.bwd,
      fun h => (by rcases h with h | h <;> cases h), fun h => by cases h⟩
  | resetTarget =>
    simp only [cchCall, CchQuery.resetTarget, hon1, hon2, Option.map_eq_some_iff, Option.bind_eq_bind, Option.bind_some,
      Option.bind_eq_some_iff] at e1 e2
    obtain ⟨a1, ⟨_, _, f1, e1, x1, y1, g1⟩, h1⟩ := e1
    obtain ⟨a2, ⟨_, _, f2, e2, x2, y2, g2⟩, h2⟩ := e2
    cases g1; cases h1; cases g2; cases h2
    obtain ⟨ts, b, hmode, _, rfl⟩ := st1
    obtain ⟨c1, _, _, _, _, _, j1, _, _, k1⟩ := r1.ex
    obtain ⟨c2, _, _, _, _, _, j2, _, _, k2⟩ := r2.ex
    cases j1; cases j2
    exact ⟨rfl, r1, r2, rfl, hS.fwd, (cchCollecting_core k1.2.2.1 k2.2.2.1).core,
      fun h => (by rcases h with h | h <;> cases h), fun h => by cases h⟩
  | runToPinnedTargets =>
    simp only [cchCall, CchQuery.runToPinnedTargets, hon1, hon2, Option.map_eq_some_iff, Option.bind_eq_bind, Option.bind_some,
      Option.bind_eq_some_iff] at e1 e2
    obtain ⟨a1, ⟨_, _, f1, e1, g1⟩, h1⟩ := e1
    obtain ⟨a2, ⟨_, _, f2, e2, g2⟩, h2⟩ := e2
    cases g1; cases h1; cases g2; cases h2
    obtain ⟨ts, b, hmode, _, rfl⟩ := st1
    obtain ⟨k1, k2⟩ := CchHalf.pinnedRun_core hS.fwd hS.bwd _ _ _ _ _ e1 e2
    exact ⟨rfl, r1, r2, rfl, k1, k2, fun h => (by rcases h with h | h <;> cases h), fun h => by cases h⟩
  | runToPinnedSources =>
    simp only [cchCall, CchQuery.runToPinnedSources, hon1, hon2, Option.map_eq_some_iff, Option.bind_eq_bind, Option.bind_some,
      Option.bind_eq_some_iff] at e1 e2
    obtain ⟨a1, ⟨_, _, f1, e1, g1⟩, h1⟩ := e1
    obtain ⟨a2, ⟨_, _, f2, e2, g2⟩, h2⟩ := e2
    cases g1; cases h1; cases g2; cases h2
    obtain ⟨ts, b, hmode, _, rfl⟩ := st1
    obtain ⟨k1, k2⟩ := CchHalf.pinnedRun_core hS.bwd hS.fwd _ _ _ _ _ e1 e2
    exact ⟨rfl, r1, r2, rfl, k2, k1, fun h => (by rcases h with h | h <;> cases h), fun h => by cases h⟩
  | resultsToTargets =>
    simp only [cchCall, CchQuery.getDistancesToTargets, Option.map_eq_some_iff, Option.bind_eq_bind, Option.bind_eq_some_iff] at e1 e2
    obtain ⟨a1, ⟨_, _, _, _, e1⟩, h1⟩ := e1
    obtain ⟨a2, ⟨_, _, _, _, e2⟩, h2⟩ := e2
    cases h1; cases h2
    obtain ⟨rfl, _⟩ := st1
    rw [hS.bwd.nodes, hS.fwd.dist, e2] at e1
    cases e1
    exact ⟨rfl, hS⟩
  | resultsToSources =>
    simp only [cchCall, CchQuery.getDistancesToSources, Option.map_eq_some_iff, Option.bind_eq_bind, Option.bind_eq_some_iff] at e1 e2
    obtain ⟨a1, ⟨_, _, _, _, e1⟩, h1⟩ := e1
    obtain ⟨a2, ⟨_, _, _, _, e2⟩, h2⟩ := e2
    cases h1; cases h2
    obtain ⟨rfl, _⟩ := st1
    rw [hS.fwd.nodes, hS.bwd.dist, e2] at e1
    cases e1
    exact ⟨rfl, hS⟩
  | pinnedTargetCount => exact hp.elim
  | pinnedSourceCount => exact hp.elim

end RK
