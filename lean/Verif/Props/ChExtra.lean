import Verif.Proof.ChExtraPinned
import Verif.Props.ChQuery
/-! # Property theorems C63 (extra weights of contraction hierarchies) -/
namespace RK.Props
open Spec

variable {W : Type}

/-- The extra weights are given by a container, or by a `ContractionHierarchyExtraWeight` object that was
computed for this hierarchy with this link function (whatever the object was used for before). -/
def ExtraFor (ch : Ch) (a : ExtraArg (ExtraWeight W) W) : Prop :=
  a.extra = .container a.weight ∨
  ∃ (old x : ChExtra W) (dflt : W), ChExtra.reset dflt ch a.weight a.link old = some x ∧ a.extra = .table x

/-- Performs one call on the model. -/
def chExtraCall (q : ChQuery) : XOp Ch (ExtraWeight W) W → Option (ChQuery × XOut W)
  | .base op => (chCall q op).map fun r => (r.1, .base r.2)
  | .results a => do
    let d ← q.getDistance
    let s ← q.getUsedSource
    let t ← q.getUsedTarget
    let arcs ← q.getArcPath
    let p ← q.getNodePath
    let x ← q.getExtraWeightDistance a.dflt a.extra a.link
    some (q, .result ⟨d, s, t, arcs, p⟩ x)
  | .toTargets a buffer => do
    let d ← q.getDistancesToTargets
    let u ← q.getUsedSourcesToTargets
    match buffer with
    | none => (q.getExtraToTargets a.dflt a.extra a.link).map fun r => (r.1, .lists d u r.2)
    | some (tmp, dist) => (q.extraToTargets a.dflt a.extra a.link tmp dist).map fun r => (r.1, .lists d u r.2.2)
  | .toSources a buffer => do
    let d ← q.getDistancesToSources
    let u ← q.getUsedTargetsToSources
    match buffer with
    | none => (q.getExtraToSources a.dflt a.extra a.link).map fun r => (r.1, .lists d u r.2)
    | some (tmp, dist) => (q.extraToSources a.dflt a.extra a.link tmp dist).map fun r => (r.1, .lists d u r.2.2)

theorem extraFor_good {ch : Ch} {G : QGraph} (hk : HierOk ch G) {a : ExtraArg (ExtraWeight W) W}
    (h : XPre.GoodArg ExtraFor G ch a) : GoodGet ch G.arcs a.weight a.link (a.extra.get ch a.link) := by
  obtain ⟨h1, h2 | ⟨old, x, dflt, h2, h3⟩⟩ := h
  · rw [h2]; exact container_good hk.ok h1 a.link
  · obtain ⟨x', e, hI⟩ := reset_table hk.ok h1 a.link dflt old
    rw [h2] at e; cases e
    rw [h3]; exact table_good hk.ok hI

/-- Which hierarchy is attached. -/
theorem chCall_ch {q q' : ChQuery} {op : QOp Ch} {o : QOut} {ch : Ch} (hch : q.ch = some ch) (h : chCall q op = some (q', o)) :
    q'.ch = some (op.attached ch) := by
  have hr : ∀ {q q' : ChQuery}, q.reset = some q' → q'.ch = q.ch := by
    intro q q' h
    simp only [ChQuery.reset, Option.bind_eq_bind, Option.bind_eq_some_iff] at h
    obtain ⟨_, _, _, _, _, _, h⟩ := h
    cases h
    rfl
  cases op <;>
    simp only [chCall, Option.map_eq_some_iff, Option.bind_eq_bind, Option.bind_eq_some_iff, Prod.mk.injEq, Option.some.injEq] at h
  case attach c G =>
    obtain ⟨q1, h, rfl, rfl⟩ := h
    unfold ChQuery.resetCh at h
    split at h
    · simp only [Option.bind_eq_bind, Option.bind_eq_some_iff] at h
      obtain ⟨q2, h, h'⟩ := h
      cases h'
      rfl
    · cases h; rfl
  case addSource _ _ =>
    obtain ⟨q1, h, rfl, rfl⟩ := h
    simp only [ChQuery.addSource, Option.bind_eq_bind, Option.bind_eq_some_iff] at h
    obtain ⟨_, _, _, _, _, _, _, _, h⟩ := h
    cases h
    exact hch
  case addTarget _ _ =>
    obtain ⟨q1, h, rfl, rfl⟩ := h
    simp only [ChQuery.addTarget, Option.bind_eq_bind, Option.bind_eq_some_iff] at h
    obtain ⟨_, _, _, _, _, _, _, _, h⟩ := h
    cases h
    exact hch
  case run =>
    obtain ⟨q1, h, rfl, rfl⟩ := h
    simp only [ChQuery.run, Option.bind_eq_bind, Option.bind_eq_some_iff] at h
    obtain ⟨_, _, _, _, _, _, _, _, _, _, h⟩ := h
    cases h
    exact hch
  case pinTargets _ =>
    obtain ⟨q1, h, rfl, rfl⟩ := h
    simp only [ChQuery.pinTargets, Option.bind_eq_bind, Option.bind_eq_some_iff] at h
    obtain ⟨_, _, _, _, _, _, _, _, h⟩ := h
    cases h
    exact hch
  case pinSources _ =>
    obtain ⟨q1, h, rfl, rfl⟩ := h
    simp only [ChQuery.pinSources, Option.bind_eq_bind, Option.bind_eq_some_iff] at h
    obtain ⟨_, _, _, _, _, _, _, _, h⟩ := h
    cases h
    exact hch
  case resetSource =>
    obtain ⟨q1, h, rfl, rfl⟩ := h
    simp only [ChQuery.resetSource, Option.bind_eq_bind, Option.bind_eq_some_iff] at h
    obtain ⟨_, _, _, _, _, _, h⟩ := h
    cases h
    exact hch
  case resetTarget =>
    obtain ⟨q1, h, rfl, rfl⟩ := h
    simp only [ChQuery.resetTarget, Option.bind_eq_bind, Option.bind_eq_some_iff] at h
    obtain ⟨_, _, _, _, _, _, h⟩ := h
    cases h
    exact hch
  case runToPinnedTargets =>
    obtain ⟨q1, h, rfl, rfl⟩ := h
    simp only [ChQuery.runToPinnedTargets, Option.bind_eq_bind, Option.bind_eq_some_iff] at h
    obtain ⟨_, _, _, _, _, _, _, _, h⟩ := h
    cases h
    exact hch
  case runToPinnedSources =>
    obtain ⟨q1, h, rfl, rfl⟩ := h
    simp only [ChQuery.runToPinnedSources, Option.bind_eq_bind, Option.bind_eq_some_iff] at h
    obtain ⟨_, _, _, _, _, _, _, _, h⟩ := h
    cases h
    exact hch
  case reset =>
    obtain ⟨q1, h, rfl, rfl⟩ := h
    exact (hr h).trans hch
  case results =>
    obtain ⟨_, _, _, _, _, _, _, _, _, _, rfl, _⟩ := h
    exact hch
  case resultsToTargets =>
    obtain ⟨_, _, _, _, rfl, _⟩ := h
    exact hch
  case resultsToSources =>
    obtain ⟨_, _, _, _, rfl, _⟩ := h
    exact hch
  case pinnedTargetCount =>
    obtain ⟨_, _, rfl, _⟩ := h
    exact hch
  case pinnedSourceCount =>
    obtain ⟨_, _, rfl, _⟩ := h
    exact hch

def XRep (q : ChQuery) (s : QState × Ch) : Prop := QRep q s.1 ∧ q.ch = some s.2

theorem chExtraCall_spec {q : ChQuery} {s : QState × Ch} {op : XOp Ch (ExtraWeight W) W} (hc : XRep q s)
    (hp : XPre ChPre ExtraFor s op) :
    ∃ q' out s', chExtraCall q op = some (q', out) ∧ XStep s op out s' ∧ XRep q' s' := by
  obtain ⟨hc, hch⟩ := hc
  obtain ⟨ch, hch', hk, hm⟩ := hc.ex
  rw [hch] at hch'
  obtain ⟨s, ch⟩ := s
  cases hch'
  dsimp only at *
  cases op with
  | base op =>
    obtain ⟨q', out, s', e, h1, h2⟩ := chCall_spec hc (chPre hp)
    exact ⟨q', .base out, (s', _), by simp only [chExtraCall, e, Option.map_some], ⟨out, rfl, h1, rfl⟩, h2, chCall_ch hch e⟩
  | results a =>
    obtain ⟨hmode, hg⟩ := hp
    have hmode' : s.mode = .ran := hmode
    rw [hmode'] at hm
    obtain ⟨r, e1, e2, e3, e4, e5, hr⟩ := results_spec hk hch hc.srcLt hc.tgtLt hm
    obtain ⟨arcs, x, e6, e7, e8⟩ := extraDistance_spec hk hch hm (extraFor_good hk hg) a.dflt
    rw [e4] at e6; cases e6
    exact ⟨q, .result r x, (s, ch), by simp [chExtraCall, e1, e2, e3, e4, e5, e7], ⟨rfl, r, x, rfl, hr, e8⟩, hc, hch⟩
  | toTargets a buffer =>
    obtain ⟨⟨ts, hmode, hts⟩, hg, hbuf⟩ := hp
    have hm' := hm
    rw [hmode] at hm
    obtain ⟨hst, hmc, hpin, hran⟩ := hm
    have hgg := extraFor_good hk hg
    obtain ⟨ds, us, e1, e2, hall⟩ := pinned_lists hpin hts
      (T := fun t v u => ToTarget s.graph.arcs s.sources t v u ∧
        ∃ r, rd ch.rank t = some r ∧ rd q.fwd.dist r = some v ∧ ChHalf.usedSource ch.backward ch.order q.fwd r = some u)
      (h := q.fwd) (order := ch.order)
      (fun t r ht hr hj => by
        obtain ⟨v, u, g1, g2, g3⟩ := toTargets_answer hk hc.srcLt hpin.sel hran (hpin.lt t ht) hr hj
        exact ⟨v, u, g1, g2, g3, r, hr, g1, g2⟩)
    have hall' : ForAll3 (ToTarget s.graph.arcs s.sources) ts ds us :=
      ⟨hall.1, hall.2.1, fun i x y z h1 h2 h3 => (hall.2.2 i x y z h1 h2 h3).1⟩
    obtain ⟨h0, P0, P, hd⟩ := hran
    have key : ∀ tmp dist : List W, s.graph.n ≤ tmp.length → ts.length ≤ dist.length →
        ∃ q' tmp' xs, q.extraToTargets a.dflt a.extra a.link tmp dist = some (q', tmp', xs) ∧ xs.length = dist.length ∧
          (∀ i : Nat, ts.length ≤ i → xs[i]? = dist[i]?) ∧
          (∀ (i t d u : Nat), ts[i]? = some t → ds[i]? = some d → us[i]? = some u → ∃ x, xs[i]? = some x ∧
            ExtraToTarget s.graph.arcs a.weight a.link a.dflt s.sources t d u x) ∧ XRep q' (s, ch) := by
      intro tmp dist h1 h2
      obtain ⟨pin', tmp', xs, x1, x2, x3, x4, x5, x6, x7⟩ := hd.extract_spec (get := a.extra.get ch a.link) (link := a.link)
        hk.q.f hk.q.b hk.q.n_le hk.ok.hier hpin.sel
        (fun arc x y w h => by obtain ⟨l, v, _, _, h', _⟩ := hgg.1 arc x y w h; exact ⟨v, h'⟩)
        (fun arc x y w h => by obtain ⟨l, v, _, _, h', _⟩ := hgg.2 arc x y w h; exact ⟨v, h'⟩) a.dflt hpin.half (count := ts.length)
        (by
          intro i hi
          obtain ⟨r, j, _, g2, g3, g4⟩ := hpin.tgt i _ (rd_fn hi)
          exact ⟨j, g3, by rw [g4]; exact g2⟩) h1 h2
      refine ⟨{ q with bwd := pin' }, tmp', xs, ?_, x5, x6, ?_, ⟨⟨ch, hch, hk, ?_⟩, hc.srcLt, hc.tgtLt⟩, hch⟩
      · simp [ChQuery.extraToTargets, hst, hch, hmc, x1]
      · intro i t d u ht hdd hu
        obtain ⟨r, v, y1, y2, y3⟩ := x7 i (rd_some_lt (v := ts) ht)
        obtain ⟨r', j, z1, z2, z3, z4⟩ := hpin.tgt i t ht
        rw [y1] at z2; cases z2
        obtain ⟨_, r', w1, w2, w3⟩ := hall.2.2 i t d u ht hdd hu
        rw [z1] at w1; cases w1
        exact ⟨v, y2, extraTo_target hk hgg hc.srcLt hpin.sel hd (hpin.lt t (List.mem_of_getElem? ht)) z1
          (by rw [← z4]; exact hpin.sel.lt j z3) w2 w3 y3⟩
      · show ModeRep _ _ _ _ _ s.mode
        rw [hmode]
        exact ⟨hst, hmc, ⟨x2, by rw [x3]; exact hpin.sel, hpin.lt, by rw [x3, x4]; exact hpin.tgt⟩, h0, P0, P, by rw [x3]; exact hd⟩
    have hd1 : q.getDistancesToTargets = some ds := by simp [ChQuery.getDistancesToTargets, hch, hst, hmc, e1]
    have hu1 : q.getUsedSourcesToTargets = some us := by simp [ChQuery.getUsedSourcesToTargets, hch, hst, hmc, e2]
    cases buffer with
    | none =>
      obtain ⟨q', tmp', xs, r1, r2, r3, r4, r5⟩ := key (List.replicate ch.rank.length a.dflt) (List.replicate ts.length a.dflt)
        (by simp [hk.ok.rankLen]) (by simp)
      refine ⟨q', .lists ds us xs, (s, ch), ?_, ⟨rfl, ts, true, ds, us, xs, hmode, rfl, hall', by simpa using r2, r4,
        fun _ _ h => by cases h⟩, r5⟩
      have hcnt : q.getPinnedTargetCount = some ts.length := by simp [ChQuery.getPinnedTargetCount, hst, hmc]
      simp only [chExtraCall, hd1, hu1, ChQuery.getExtraToTargets, hch, hcnt, r1, Option.bind_eq_bind, Option.bind_some, Option.map_some]
    | some b =>
      obtain ⟨tmp, dist⟩ := b
      obtain ⟨h1, h2⟩ := hbuf tmp dist ts true rfl hmode
      obtain ⟨q', tmp', xs, r1, r2, r3, r4, r5⟩ := key tmp dist h1 h2
      refine ⟨q', .lists ds us xs, (s, ch), ?_, ⟨rfl, ts, true, ds, us, xs, hmode, rfl, hall', r2, r4,
        fun _ _ h => by cases h; exact r3⟩, r5⟩
      simp only [chExtraCall, hd1, hu1, r1, Option.bind_eq_bind, Option.bind_some, Option.map_some]
  | toSources a buffer =>
    obtain ⟨⟨ts, hmode, hts⟩, hg, hbuf⟩ := hp
    have hm' := hm
    rw [hmode] at hm
    obtain ⟨hst, hmc, hpin, hran⟩ := hm
    have hgg := extraFor_good hk hg
    obtain ⟨ds, us, e1, e2, hall⟩ := pinned_lists hpin hts
      (T := fun t v u => ToSource s.graph.arcs s.targets t v u ∧
        ∃ r, rd ch.rank t = some r ∧ rd q.bwd.dist r = some v ∧ ChHalf.usedSource ch.forward ch.order q.bwd r = some u)
      (h := q.bwd) (order := ch.order)
      (fun t r ht hr hj => by
        obtain ⟨v, u, g1, g2, g3⟩ := toSources_answer hk hc.tgtLt hpin.sel hran (hpin.lt t ht) hr hj
        exact ⟨v, u, g1, g2, g3, r, hr, g1, g2⟩)
    have hall' : ForAll3 (ToSource s.graph.arcs s.targets) ts ds us :=
      ⟨hall.1, hall.2.1, fun i x y z h1 h2 h3 => (hall.2.2 i x y z h1 h2 h3).1⟩
    obtain ⟨h0, P0, P, hd⟩ := hran
    have key : ∀ tmp dist : List W, s.graph.n ≤ tmp.length → ts.length ≤ dist.length →
        ∃ q' tmp' xs, q.extraToSources a.dflt a.extra a.link tmp dist = some (q', tmp', xs) ∧ xs.length = dist.length ∧
          (∀ i : Nat, ts.length ≤ i → xs[i]? = dist[i]?) ∧
          (∀ (i t d u : Nat), ts[i]? = some t → ds[i]? = some d → us[i]? = some u → ∃ x, xs[i]? = some x ∧
            ExtraToSource s.graph.arcs a.weight a.link a.dflt s.targets t d u x) ∧ XRep q' (s, ch) := by
      intro tmp dist h1 h2
      obtain ⟨pin', tmp', xs, x1, x2, x3, x4, x5, x6, x7⟩ := hd.extract_spec (get := fun b => a.extra.get ch a.link (!b)) (link := inverseLink a.link)
        hk.q.b hk.q.f hk.q.n_le hk.ok.hier.swap hpin.sel
        (fun arc x y w h => by obtain ⟨l, v, _, _, h', _⟩ := hgg.2 arc x y w h; exact ⟨v, h'⟩)
        (fun arc x y w h => by obtain ⟨l, v, _, _, h', _⟩ := hgg.1 arc x y w h; exact ⟨v, h'⟩) a.dflt hpin.half (count := ts.length)
        (by
          intro i hi
          obtain ⟨r, j, _, g2, g3, g4⟩ := hpin.tgt i _ (rd_fn hi)
          exact ⟨j, g3, by rw [g4]; exact g2⟩) h1 h2
      refine ⟨{ q with fwd := pin' }, tmp', xs, ?_, x5, x6, ?_, ⟨⟨ch, hch, hk, ?_⟩, hc.srcLt, hc.tgtLt⟩, hch⟩
      · simp only [Bool.not_true, Bool.not_false] at x1
        simp [ChQuery.extraToSources, hst, hch, hmc, x1]
      · intro i t d u ht hdd hu
        obtain ⟨r, v, y1, y2, y3⟩ := x7 i (rd_some_lt (v := ts) ht)
        obtain ⟨r', j, z1, z2, z3, z4⟩ := hpin.tgt i t ht
        rw [y1] at z2; cases z2
        obtain ⟨_, r', w1, w2, w3⟩ := hall.2.2 i t d u ht hdd hu
        rw [z1] at w1; cases w1
        exact ⟨v, y2, extraTo_source hk hgg hc.tgtLt hpin.sel hd (hpin.lt t (List.mem_of_getElem? ht)) z1
          (by rw [← z4]; exact hpin.sel.lt j z3) w2 w3 y3⟩
      · show ModeRep _ _ _ _ _ s.mode
        rw [hmode]
        exact ⟨hst, hmc, ⟨x2, by rw [x3]; exact hpin.sel, hpin.lt, by rw [x3, x4]; exact hpin.tgt⟩, h0, P0, P, by rw [x3]; exact hd⟩
    have hd1 : q.getDistancesToSources = some ds := by simp [ChQuery.getDistancesToSources, hch, hst, hmc, e1]
    have hu1 : q.getUsedTargetsToSources = some us := by simp [ChQuery.getUsedTargetsToSources, hch, hst, hmc, e2]
    cases buffer with
    | none =>
      obtain ⟨q', tmp', xs, r1, r2, r3, r4, r5⟩ := key (List.replicate ch.rank.length a.dflt) (List.replicate ts.length a.dflt)
        (by simp [hk.ok.rankLen]) (by simp)
      refine ⟨q', .lists ds us xs, (s, ch), ?_, ⟨rfl, ts, true, ds, us, xs, hmode, rfl, hall', by simpa using r2, r4,
        fun _ _ h => by cases h⟩, r5⟩
      have hcnt : q.getPinnedSourceCount = some ts.length := by simp [ChQuery.getPinnedSourceCount, hst, hmc]
      simp only [chExtraCall, hd1, hu1, ChQuery.getExtraToSources, hch, hcnt, r1, Option.bind_eq_bind, Option.bind_some, Option.map_some]
    | some b =>
      obtain ⟨tmp, dist⟩ := b
      obtain ⟨h1, h2⟩ := hbuf tmp dist ts true rfl hmode
      obtain ⟨q', tmp', xs, r1, r2, r3, r4, r5⟩ := key tmp dist h1 h2
      refine ⟨q', .lists ds us xs, (s, ch), ?_, ⟨rfl, ts, true, ds, us, xs, hmode, rfl, hall', r2, r4,
        fun _ _ h => by cases h; exact r3⟩, r5⟩
      simp only [chExtraCall, hd1, hu1, r1, Option.bind_eq_bind, Option.bind_some, Option.map_some]

/-- C63, histories. A query object serves every legal history of calls, including those for extra weights,
without undefined behaviour. The extra weight reported with a path is obtained by linking the weights of
its arcs in order, and is the default weight if there is no arc; the extra weight reported for a pinned node
is that of a shortest path between this node and the reported used source or target. It makes no difference
whether the weights are given per arc or were computed for the hierarchy in advance. -/
theorem C63_query_histories (ch : Ch) (G : QGraph) (h : BuiltFor ch G) :
    Implements (chExtraCall (W := W)) XStep (XPre ChPre ExtraFor) (ChQuery.new ch) (QState.fresh G, ch) :=
  implements_of_simulation XRep ⟨chQuery_rep_new h.hierOk, rfl⟩ (fun _ _ _ hc hp => chExtraCall_spec hc hp)

/-- C63: extra weights can always be computed for a hierarchy in advance, and the object may have been used
for another hierarchy before. -/
theorem C63_table_computable (ch : Ch) (G : QGraph) (h : BuiltFor ch G) (weight : List W)
    (hw : ∀ a x y w, G.arcs a x y w → a < weight.length) (link : W → W → W) (dflt : W) (old : ChExtra W) :
    ∃ x, ChExtra.reset dflt ch weight link old = some x := by
  obtain ⟨x, e, _⟩ := reset_table h.hierOk.ok hw link dflt old
  exact ⟨x, e⟩

/-- C63 with a fresh object in elementary terms: the extra weight belongs to the arc path that is returned. -/
theorem C63_one_to_one (ch : Ch) (G : QGraph) (h : BuiltFor ch G) (s t : Nat) (hs : s < G.n) (ht : t < G.n)
    (a : ExtraArg (ExtraWeight W) W) (hw : ∀ arc x y w, G.arcs arc x y w → arc < a.weight.length) (ha : ExtraFor ch a) :
    ∃ (q1 q2 q3 : ChQuery) (d : Nat) (arcs : List Nat) (x : W), (ChQuery.new ch).addSource s 0 = some q1 ∧
      q1.addTarget t 0 = some q2 ∧ q2.run = some q3 ∧ q3.getDistance = some d ∧ q3.getArcPath = some arcs ∧
      q3.getExtraWeightDistance a.dflt a.extra a.link = some x ∧ ExtraOf a.weight a.link a.dflt arcs x ∧
      ((d < 2147483647 ∧ IsDist G.arcs s t d ∧ Walk G.arcs s arcs t d) ∨
       (d = 2147483647 ∧ (∀ p l, Walk G.arcs s p t l → 2147483647 ≤ l) ∧ arcs = [])) := by
  obtain ⟨q1, q2, q3, d, arcs, nodes, e1, e2, e3, e4, e5, e6, e7⟩ := C22_C23_one_to_one ch G h s t hs ht
  obtain ⟨q2', out, s', c1, ⟨_, rfl⟩, r1⟩ := chCall_spec (op := .addSource s 0) (chQuery_rep_new h.hierOk)
    ⟨hs, by decide, Or.inl rfl⟩
  simp only [chCall, e1, Option.map_some, Option.some.injEq, Prod.mk.injEq] at c1
  obtain ⟨rfl, rfl⟩ := c1
  obtain ⟨q2', out, s', c1, ⟨_, rfl⟩, r2⟩ := chCall_spec (op := .addTarget t 0) r1 ⟨ht, by decide, Or.inl rfl⟩
  simp only [chCall, e2, Option.map_some, Option.some.injEq, Prod.mk.injEq] at c1
  obtain ⟨rfl, rfl⟩ := c1
  obtain ⟨q2', out, s', c1, ⟨_, rfl⟩, r3⟩ := chCall_spec (op := .run) r2 ⟨rfl, by simp [QState.fresh], by simp [QState.fresh]⟩
  simp only [chCall, e3, Option.map_some, Option.some.injEq, Prod.mk.injEq] at c1
  obtain ⟨rfl, rfl⟩ := c1
  have c0 : q3.ch = some ch := by
    have g1 := chCall_ch (q := ChQuery.new ch) (op := .addSource s 0) (o := .unit) (q' := q1) rfl (by simp [chCall, e1])
    have g2 := chCall_ch (op := .addTarget t 0) (o := .unit) (q' := q2) g1 (by simp [chCall, e2])
    exact chCall_ch (op := .run) (o := .unit) (q' := q3) g2 (by simp [chCall, e3])
  obtain ⟨ch', c1, c2, c3⟩ := r3.ex
  rw [c0] at c1; cases c1
  obtain ⟨arcs', x, e6', e7', e8⟩ := extraDistance_spec c2 c0 c3 (extraFor_good h.hierOk ⟨hw, ha⟩) a.dflt
  rw [e5] at e6'; cases e6'
  refine ⟨q1, q2, q3, d, arcs, x, e1, e2, e3, e4, e5, e7', e8, ?_⟩
  rcases e7 with ⟨g1, g2, g3, _⟩ | ⟨g1, g2, g3, _⟩
  · exact Or.inl ⟨g1, g2, g3⟩
  · exact Or.inr ⟨g1, g2, g3⟩

/-! ### Particular link functions -/

/-- C63: if the link function is associative then the extra weight of a path with arcs is the left fold. -/
theorem C63_associative_link (weight : List W) (link : W → W → W) (hl : ∀ a b c, link (link a b) c = link a (link b c))
    (dflt : W) (p : List Nat) (x : W) (h : ExtraOf weight link dflt p x) (hp : p ≠ []) :
    ∃ (w : W) (ws : List W), p.map (fun a => weight[a]?) = some w :: ws.map some ∧ x = ws.foldl link w := by
  rcases h with ⟨h, _⟩ | ⟨ws, h1, h2⟩
  · exact absurd h hp
  · obtain ⟨w, ws', rfl, h3⟩ := linked_assoc hl h2
    exact ⟨w, ws', by simpa using h1, h3⟩

/-- C63: with the one-element lists of the arc ids as weights and concatenation as link function the extra
weight is the path itself. (Concatenation does not commute, so this also fixes the order.) -/
theorem C63_concatenation (m : Nat) (p : List Nat) (x : List Nat)
    (h : ExtraOf ((List.range m).map fun a => [a]) (· ++ ·) [] p x) : x = p := by
  rcases h with ⟨rfl, rfl⟩ | ⟨ws, h1, h2⟩
  · rfl
  · have hx : ∀ {ws : List (List Nat)} {x : List Nat}, Linked (· ++ ·) ws x → x = ws.flatten := by
      intro ws x h
      induction h with
      | one w => simp
      | join _ _ h1 h2 => rw [h1, h2, List.flatten_append]
    rw [hx h2]
    clear h2 hx
    induction p generalizing ws with
    | nil =>
      cases ws with
      | nil => rfl
      | cons => simp at h1
    | cons a p ih =>
      cases ws with
      | nil => simp at h1
      | cons w ws =>
        simp only [List.map_cons, List.cons.injEq] at h1
        obtain ⟨h1, h2⟩ := h1
        rw [List.flatten_cons, ← ih ws h2]
        have : w = [a] := by
          rw [List.getElem?_map, Option.map_eq_some_iff] at h1
          obtain ⟨b, h3, rfl⟩ := h1
          rw [List.getElem?_eq_some_iff] at h3
          obtain ⟨_, h3⟩ := h3
          simp at h3
          rw [h3]
        rw [this]; rfl

/-- C63: with the lengths of the arcs as weights and addition as link function the extra weight is the length
of the path. -/
theorem C63_lengths (A : ArcRel) (weight : List Nat) (hA : ∀ a x y w, A a x y w → weight[a]? = some w) (s t : Nat)
    (p : List Nat) (l x : Nat) (hp : Walk A s p t l) (h : ExtraOf weight (· + ·) 0 p x) : x = l := by
  have hx : ∀ {ws : List Nat} {x : Nat}, Linked (· + ·) ws x → x = ws.sum := by
    intro ws x h
    induction h with
    | one w => simp
    | join _ _ h1 h2 => rw [h1, h2, List.sum_append]
  have key : ∀ ws : List Nat, p.map (fun a => weight[a]?) = ws.map some → ws.sum = l := by
    clear h
    induction hp with
    | nil s =>
      intro ws h
      cases ws with
      | nil => rfl
      | cons => simp at h
    | cons ha _ ih =>
      intro ws h
      cases ws with
      | nil => simp at h
      | cons w ws =>
        simp only [List.map_cons, List.cons.injEq, hA _ _ _ _ ha, Option.some.injEq] at h
        rw [List.sum_cons, ih ws h.2, h.1]
  rcases h with ⟨rfl, rfl⟩ | ⟨ws, h1, h2⟩
  · exact key [] rfl
  · rw [hx h2, key ws h1]

/-- C63: `SaturatedWeightAddition` for `unsigned` is addition limited to `inf_weight`; larger arguments fail
an assertion. -/
theorem C63_saturated_unsigned (l r : Nat) :
    satAddUnsigned l r = if l ≤ 2147483647 ∧ r ≤ 2147483647 then some (min (l + r) 2147483647) else none := by
  have hi : infWeight = 2147483647 := rfl
  unfold satAddUnsigned check
  rw [hi]
  by_cases h1 : l ≤ 2147483647 <;> by_cases h2 : r ≤ 2147483647 <;> simp [h1, h2]
  split <;> congr 1 <;> omega

/-- C63: it is associative, so that the extra weight does not depend on the shortcuts that were used. -/
theorem C63_saturated_unsigned_associative (a b c : Nat) (ha : a ≤ 2147483647) (hb : b ≤ 2147483647) (hc : c ≤ 2147483647) :
    ∃ v, (satAddUnsigned a b).bind (fun x => satAddUnsigned x c) = some v ∧
      (satAddUnsigned b c).bind (fun x => satAddUnsigned a x) = some v ∧ v = min (a + b + c) 2147483647 := by
  refine ⟨_, ?_, ?_, rfl⟩
  · simp only [C63_saturated_unsigned, ha, hb, hc, and_self, if_true, Option.bind_some]
    rw [if_pos ⟨by omega, trivial⟩]
    congr 1; omega
  · simp only [C63_saturated_unsigned, ha, hb, hc, and_self, if_true, Option.bind_some]
    rw [if_pos ⟨trivial, by omega⟩]
    congr 1; omega

/-- C63: `SaturatedWeightAddition` for `int` never overflows and is addition limited to the range of `int`. -/
theorem C63_saturated_int (l r : Int) (hl : -2147483648 ≤ l ∧ l ≤ 2147483647) (hr : -2147483648 ≤ r ∧ r ≤ 2147483647) :
    satAddInt l r = some (max (-2147483648) (min (l + r) 2147483647)) := by
  unfold satAddInt int32 intMax intMin
  by_cases h1 : l > 0
  · rw [if_pos h1, if_pos (by omega)]
    simp only [Option.bind_eq_bind, Option.bind_some]
    by_cases h2 : r > 2147483647 - l
    · rw [if_pos h2]; congr 1; omega
    · rw [if_neg h2, if_pos (by omega)]; congr 1; omega
  · rw [if_neg h1, if_pos (by omega)]
    simp only [Option.bind_eq_bind, Option.bind_some]
    by_cases h2 : r < -2147483648 - l
    · rw [if_pos h2]; congr 1; omega
    · rw [if_neg h2, if_pos (by omega)]; congr 1; omega

/-- For `int` it is not associative: the extra weight of one and the same path depends on how the hierarchy
brackets it. -/
theorem C63_saturated_int_depends_on_bracketing :
    (satAddInt 2147483647 1).bind (fun x => satAddInt x (-1)) = some 2147483646 ∧
    (satAddInt 1 (-1)).bind (fun x => satAddInt 2147483647 x) = some 2147483647 := by decide

/-! ### A concrete case -/

/-- Non-vacuity: the sample hierarchy, weights for its eight arcs, container and table. -/
example : ∃ ch, sampleCh = some ch ∧ BuiltFor ch sampleChGraph ∧
    (∀ a x y w, sampleChGraph.arcs a x y w → a < ((List.range 8).map fun a => [a]).length) ∧
    ExtraFor ch ⟨.container ((List.range 8).map fun a => [a]), (List.range 8).map fun a => [a], (· ++ ·), []⟩ ∧
    ∃ x, ExtraFor ch ⟨.table x, (List.range 8).map fun a => [a], (· ++ ·), []⟩ := by
  obtain ⟨ch, h1, h2, _⟩ := sampleCh_built
  have hw : ∀ a x y w, sampleChGraph.arcs a x y w → a < ((List.range 8).map fun a => [a]).length := by
    intro a x y w h
    have := (List.getElem?_eq_some_iff.1 h.1).1
    simpa using this
  obtain ⟨x, hx⟩ := C63_table_computable ch _ h2 ((List.range 8).map fun a => [a]) hw (· ++ ·) [] ⟨[[7]], []⟩
  exact ⟨ch, h1, h2, hw, Or.inl rfl, x, Or.inr ⟨_, x, _, hx, rfl⟩⟩

/-- Weights, link function and default for the examples. -/
def sampleArg (e : ExtraWeight (List Nat)) : ExtraArg (ExtraWeight (List Nat)) (List Nat) :=
  ⟨e, (List.range 8).map fun a => [a], (· ++ ·), []⟩

set_option maxRecDepth 10000 in
/-- One object, a query and runs with pinned targets and pinned sources; the extra weights are the arc paths. -/
example : (sampleCh.bind fun ch => (ChExtra.reset [] ch ((List.range 8).map fun a => [a]) (· ++ ·) ⟨[], []⟩).bind fun x =>
    (runCalls chExtraCall (ChQuery.new ch) [.base (.addSource 0 3), .base (.addSource 2 9), .base (.addTarget 4 1), .base .run,
      .results (sampleArg (.container ((List.range 8).map fun a => [a]))), .results (sampleArg (.table x)),
      .base .reset, .base (.pinTargets [4, 0, 1, 4]), .base (.addSource 1 0), .base .runToPinnedTargets,
      .toTargets (sampleArg (.table x)) none, .base .reset, .base (.pinSources [2, 4, 0]), .base (.addTarget 0 0),
      .base .runToPinnedSources, .toSources (sampleArg (.container ((List.range 8).map fun a => [a])))
        (some (List.replicate 6 [], [[], [], [], [9]]))]).map
      (·.2.filterMap fun
        | .result r x => some (r.arcs, [], [x])
        | .lists d u xs => some (d, u, xs)
        | _ => none)) =
    some [([1, 4, 5], [], [[1, 4, 5]]), ([1, 4, 5], [], [[1, 4, 5]]),
      ([6, 7, 0, 6], [1, 1, 1, 1], [[3, 5], [3, 6], [], [3, 5]]),
      ([9, 4, 0], [0, 0, 0], [[4, 6], [7, 6], [], [9]])] := by decide +kernel

/-! ### Boundary conditions -/

set_option maxRecDepth 10000 in
/-- The container `tmp` needs an element for every node, and every arc needs a weight; otherwise the call
accesses memory outside of the containers. -/
theorem C63_small_containers_undefined :
    (sampleCh.bind fun ch => (runCalls (chExtraCall (W := List Nat)) (ChQuery.new ch) [.base (.pinTargets [4]), .base (.addSource 1 0),
      .base .runToPinnedTargets]).map fun r =>
      ((r.1.extraToTargets [] (.container ((List.range 8).map fun a => [a])) (· ++ ·) (List.replicate 5 []) [[]]).map (·.2.2),
       (r.1.extraToTargets [] (.container ((List.range 8).map fun a => [a])) (· ++ ·) (List.replicate 1 []) [[]]).map (·.2.2),
       (r.1.extraToTargets [] (.container ((List.range 4).map fun a => [a])) (· ++ ·) (List.replicate 5 []) [[]]).map (·.2.2))) =
    some (some [[3, 5]], none, none) := by decide +kernel

end RK.Props
