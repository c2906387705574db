import Verif.Proof.CchSimple
import Verif.Proof.ChQuery
import Verif.Spec.CchQuery
/-! Histories of query objects on customizable contraction hierarchies. -/
namespace RK
open Spec

/-- The handle leads to a customized hierarchy for the graph `G`. -/
structure HandleOk (on : CchHandle) (G : QGraph) (rt rh : List Nat) (U : List Bool) (f b : Nat → Nat) : Prop where
  cus : Customized G.n rt rh on.inputWeight on.cch on.metric U f b
  inv : AreInverse on.cch.order on.cch.rank
  toRank : ∀ i x y w, G.arcs i x y w → x < G.n ∧ y < G.n ∧ listArcs rt rh on.inputWeight i (fn on.cch.rank x) (fn on.cch.rank y) w
  ofRank : ∀ i x y w, listArcs rt rh on.inputWeight i x y w → G.arcs i (fn on.cch.order x) (fn on.cch.order y) w

/-- Walks upward through lower nodes. -/
def innerF (n : Nat) (A : ArcRel) : ArcR := fun x y l => x < n ∧ y < n ∧ x < y ∧ ∃ p, InnerWalk A (fun z => z < x) x p y l
def innerB (n : Nat) (A : ArcRel) : ArcR := fun x y l => x < n ∧ y < n ∧ x < y ∧ ∃ p, InnerWalk A (fun z => z < x) y p x l

theorem inner_hier (n : Nat) (A : ArcRel) : Hier n (fun x => x) (innerF n A) (innerB n A) := by
  refine ⟨fun x y w h => ⟨h.1, h.2.1, h.2.2.1⟩, fun x y w h => ⟨h.1, h.2.1, h.2.2.1⟩, fun x y _ _ h => h, ?_⟩
  rintro z x y w1 w2 ⟨h1, h2, h3, p, hp⟩ ⟨g1, g2, g3, q, hq⟩ hne
  refine ⟨w1 + w2, Nat.le_refl _, RWalk.single ⟨?_, by show z + 1 ≤ x; omega, by show z + 1 ≤ y; omega⟩⟩
  have hw : InnerWalk A (fun u => u < z + 1) x (p ++ q) y (w1 + w2) :=
    innerWalk_append (innerWalk_lt hp (by omega)) (Nat.lt_succ_self z) (innerWalk_lt hq (by omega))
  rcases Nat.lt_or_gt_of_ne hne with hlt | hlt
  · exact Or.inl ⟨h2, g2, hlt, _, innerWalk_lt hw (by omega)⟩
  · exact Or.inr ⟨g2, h2, hlt, _, innerWalk_lt hw (by omega)⟩

theorem innerWalk_walk {A : ArcRel} {I : Nat → Prop} {x y l : Nat} {p : List Nat} (h : InnerWalk A I x p y l) : Walk A x p y l := by
  induction h with
  | @edge a x y w he => exact .cons (l := 0) he (.nil y)
  | step he _ _ ih => exact .cons he ih

theorem walk_append {A : ArcRel} {x y z l l' : Nat} {p q : List Nat} (h : Walk A x p y l) (h' : Walk A y q z l') :
    Walk A x (p ++ q) z (l + l') := by
  induction h with
  | nil x => simpa using h'
  | cons ha _ ih => rw [List.cons_append, Nat.add_assoc]; exact .cons ha (ih h')

namespace HandleOk
variable {on : CchHandle} {G : QGraph} {rt rh : List Nat} {U : List Bool} {f b : Nat → Nat}

theorem rank_rd (h : HandleOk on G rt rh U f b) {x : Nat} (hx : x < G.n) : rd on.cch.rank x = some (fn on.cch.rank x) :=
  rd_fn (by rw [h.cus.ok.nodes]; exact hx)

theorem order_rd (h : HandleOk on G rt rh U f b) {x : Nat} (hx : x < G.n) : rd on.cch.order x = some (fn on.cch.order x) :=
  rd_fn (by rw [h.inv.1, h.cus.ok.nodes]; exact hx)

theorem order_rank (h : HandleOk on G rt rh U f b) {x : Nat} (hx : x < G.n) : fn on.cch.order (fn on.cch.rank x) = x :=
  fn_of_rd ((h.inv.2 _ _).2 (h.rank_rd hx))

theorem rank_lt (h : HandleOk on G rt rh U f b) {x : Nat} (hx : x < G.n) : fn on.cch.rank x < G.n := by
  have := (h.inv.2 _ _).2 (h.rank_rd hx)
  have := rd_some_lt (v := on.cch.order) this
  rw [h.inv.1, h.cus.ok.nodes] at this
  exact this

theorem ctxF (h : HandleOk on G rt rh U f b) : UpCtx G.n on.cch on.metric.forward f :=
  ⟨h.cus.ok.graph.up, h.cus.is.isF, fun a ha => (h.cus.cus.le a ha).1, fun x y L ht ha =>
    Topo.up h.cus.small h.cus.ok _ x y L (Nat.le_refl _) ht (h.cus.ok.sound x y ha) (h.cus.ok.graph.up.up x y ha).2, h.cus.small⟩

theorem ctxB (h : HandleOk on G rt rh U f b) : UpCtx G.n on.cch on.metric.backward b :=
  ⟨h.cus.ok.graph.up, h.cus.is.isB, fun a ha => (h.cus.cus.le a ha).2, fun x y L ht ha =>
    Topo.up h.cus.small h.cus.ok _ x y L (Nat.le_refl _) ht (h.cus.ok.sound x y ha) (h.cus.ok.graph.up.up x y ha).2, h.cus.small⟩

theorem relF (h : HandleOk on G rt rh U f b) (x y v : Nat) (hF : innerF G.n (listArcs rt rh on.inputWeight) x y v) :
    ∃ a, rd on.cch.upTail a = some x ∧ rd on.cch.upHead a = some y ∧ f a ≤ v := by
  obtain ⟨_, _, hlt, p, hp⟩ := hF
  exact (h.cus.cus.complete (h.cus.ok.keep' h.cus.wlen) x x y p v (Nat.le_refl _) (by omega) (by omega) hp).1 hlt

theorem relB (h : HandleOk on G rt rh U f b) (x y v : Nat) (hB : innerB G.n (listArcs rt rh on.inputWeight) x y v) :
    ∃ a, rd on.cch.upTail a = some x ∧ rd on.cch.upHead a = some y ∧ b a ≤ v := by
  obtain ⟨_, _, hlt, p, hp⟩ := hB
  exact (h.cus.cus.complete (h.cus.ok.keep' h.cus.wlen) x y x p v (by omega) (Nat.le_refl _) (by omega) hp).2 hlt

/-- Every walk of the graph has an up-down counterpart that is no longer. -/
theorem updown (h : HandleOk on G rt rh U f b) {s t l : Nat} {p : List Nat} (hs : s < G.n) (hw : Walk G.arcs s p t l) :
    ∃ m l1 l2, RWalk (innerF G.n (listArcs rt rh on.inputWeight)) (fn on.cch.rank s) m l1 ∧
      RWalk (innerB G.n (listArcs rt rh on.inputWeight)) (fn on.cch.rank t) m l2 ∧ l1 + l2 ≤ l := by
  have key : ∃ l', l' ≤ l ∧ RWalk (UR (fun x => x) 0 (innerF G.n (listArcs rt rh on.inputWeight))
      (innerB G.n (listArcs rt rh on.inputWeight))) (fn on.cch.rank s) (fn on.cch.rank t) l' := by
    induction hw with
    | nil s => exact ⟨0, Nat.le_refl _, .nil _⟩
    | @cons a s m t w l p ha _ ih =>
      obtain ⟨h1, h2, h3⟩ := h.toRank _ _ _ _ ha
      obtain ⟨l', hl, hw'⟩ := ih h2
      have r1 := h.rank_lt h1
      have r2 := h.rank_lt h2
      rcases Nat.lt_trichotomy (fn on.cch.rank s) (fn on.cch.rank m) with hlt | heq | hlt
      · exact ⟨w + l', by omega, .cons ⟨Or.inl ⟨r1, r2, hlt, _, .edge h3⟩, Nat.zero_le _, Nat.zero_le _⟩ hw'⟩
      · rw [heq]; exact ⟨l', by omega, hw'⟩
      · exact ⟨w + l', by omega, .cons ⟨Or.inr ⟨r2, r1, hlt, _, .edge h3⟩, Nat.zero_le _, Nat.zero_le _⟩ hw'⟩
  obtain ⟨l', hl, hw'⟩ := key
  obtain ⟨m, l1, l2, g1, g2, g3⟩ := (inner_hier _ _).updown hw'
  exact ⟨m, l1, l2, g1, g2, by omega⟩

theorem ofRank_walk (h : HandleOk on G rt rh U f b) {x y l : Nat} {p : List Nat} (hw : Walk (listArcs rt rh on.inputWeight) x p y l) :
    Walk G.arcs (fn on.cch.order x) p (fn on.cch.order y) l := by
  induction hw with
  | nil x => exact .nil _
  | cons ha _ ih => exact .cons (h.ofRank _ _ _ _ ha) ih

theorem ofRank_seg (h : HandleOk on G rt rh U f b) {x y l : Nat} {s : List Segment}
    (hw : SegWalk on (listArcs rt rh on.inputWeight) x s y l) :
    ∃ p ns, s.mapM (segmentArc on) = some p ∧ s.mapM (fun s => rd on.cch.order s.node) = some ns ∧
      Walk G.arcs (fn on.cch.order x) p (fn on.cch.order y) l ∧
      NodesOf G.arcs (fn on.cch.order x) p (ns ++ [fn on.cch.order y]) := by
  induction hw with
  | nil x => exact ⟨[], [], rfl, rfl, .nil _, .nil _⟩
  | @cons s i z y w l segs h1 h2 _ ih =>
    obtain ⟨p, ns, e1, e2, g1, g2⟩ := ih
    have hn : s.node < G.n := h.cus.ok.tail_lt _ (mem_iff_rd.2 ⟨i, h2.1⟩)
    refine ⟨i :: p, fn on.cch.order s.node :: ns, ?_, ?_, .cons (h.ofRank _ _ _ _ h2) g1, .cons (h.ofRank _ _ _ _ h2) g2⟩
    · simp [List.mapM_cons, h1, e1]
    · simp [List.mapM_cons, h.order_rd hn, e2]

/-- Labels of the searches are lengths of walks. -/
theorem labF (h : HandleOk on G rt rh U f b) {S : List (Nat × Nat)} {L pre : List Nat} {D P : Nat → Nat}
    (hi : SInv G.n on.cch.upTail on.cch.upHead f S L pre D P) {x : Nat} (hx : x < G.n) (hlt : D x < infWeight) :
    ∃ z p l, (z, D z) ∈ S ∧ z < G.n ∧ D x = D z + l ∧ Walk G.arcs (fn on.cch.order z) p (fn on.cch.order x) l := by
  obtain ⟨l, z, hc⟩ := hi.chain h.ctxF (x + 1) x (Nat.lt_succ_self x) hx hlt
  obtain ⟨s, len, _, w, g1, g2, _, g4⟩ := h.cus.unpackUp_spec hc hlt hx
  obtain ⟨p, _, _, _, w', _⟩ := h.ofRank_seg w
  exact ⟨z, p, len, g2, g4, g1, w'⟩

theorem labB (h : HandleOk on G rt rh U f b) {S : List (Nat × Nat)} {L pre : List Nat} {D P : Nat → Nat}
    (hi : SInv G.n on.cch.upTail on.cch.upHead b S L pre D P) {x : Nat} (hx : x < G.n) (hlt : D x < infWeight) :
    ∃ z p l, (z, D z) ∈ S ∧ z < G.n ∧ D x = D z + l ∧ Walk G.arcs (fn on.cch.order x) p (fn on.cch.order z) l := by
  obtain ⟨l, z, hc⟩ := hi.chain h.ctxB (x + 1) x (Nat.lt_succ_self x) hx hlt
  obtain ⟨s, len, _, w, g1, g2, _, g4⟩ := h.cus.unpackDown_spec hc hlt hx
  obtain ⟨p, _, _, _, w', _⟩ := h.ofRank_seg w
  exact ⟨z, p, len, g2, g4, g1, w'⟩

/-- Upward walks of the hierarchy are walks of the graph. -/
theorem upF (h : HandleOk on G rt rh U f b) {x y l : Nat} (hw : RWalk (UpRel on.cch.upTail on.cch.upHead f) x y l) :
    l < infWeight → ∃ p, Walk G.arcs (fn on.cch.order x) p (fn on.cch.order y) l := by
  induction hw with
  | nil x => intro _; exact ⟨[], .nil _⟩
  | cons ha _ ih =>
    intro hlt
    obtain ⟨a, h1, h2, rfl⟩ := ha
    obtain ⟨p, hp⟩ := ih (by omega)
    obtain ⟨q, hq⟩ := (h.cus.cus.sound a _ _ h1 h2).1 (by omega)
    exact ⟨q ++ p, walk_append (h.ofRank_walk (innerWalk_walk hq)) hp⟩

theorem upB (h : HandleOk on G rt rh U f b) {x y l : Nat} (hw : RWalk (UpRel on.cch.upTail on.cch.upHead b) x y l) :
    l < infWeight → ∃ p, Walk G.arcs (fn on.cch.order y) p (fn on.cch.order x) l := by
  induction hw with
  | nil x => intro _; exact ⟨[], .nil _⟩
  | @cons x y z w l ha _ ih =>
    intro hlt
    obtain ⟨a, h1, h2, rfl⟩ := ha
    obtain ⟨p, hp⟩ := ih (by omega)
    obtain ⟨q, hq⟩ := (h.cus.cus.sound a _ _ h1 h2).2 (by omega)
    refine ⟨p ++ q, ?_⟩
    rw [Nat.add_comm]
    exact walk_append hp (h.ofRank_walk (innerWalk_walk hq))

end HandleOk

/-! ### States of the object -/

/-- Nodes have been added. -/
def CchCollecting (n : Nat) (c : Cch) (W : Nat → Nat) (S : List (Nat × Nat)) (h : CchHalf) : Prop :=
  ∃ L D P, CchHalfOk n c h L D P ∧ SInv n c.upTail c.upHead W S L [] D P ∧ (S = [] → h.nodes = [])

/-- Nodes have been pinned. -/
def CchPinned (n : Nat) (c : Cch) (rs : List Nat) (h : CchHalf) : Prop :=
  ∃ L P, CchHalfOk n c h L noLabel P ∧ h.nodes = rs

/-- A run to pinned nodes; `h` is the half of the sources, `t` that of the pinned nodes. -/
def CchPinnedRan (n : Nat) (c : Cch) (W V : Nat → Nat) (S : List (Nat × Nat)) (rs : List Nat) (h t : CchHalf) : Prop :=
  ∃ Ls Lt D P Pt DF PF, CchHalfOk n c h Ls D P ∧ CchHalfOk n c t Lt noLabel Pt ∧ t.nodes = rs ∧
    SInv n c.upTail c.upHead W S Ls Ls DF PF ∧ PInv n c.upTail c.upHead V DF Lt D

/-- The state of the halves in each mode. -/
def CchModeRep (n : Nat) (c : Cch) (f b : Nat → Nat) (srcs tgts : List (Nat × Nat)) (q : CchQuery) : QMode → Prop
  | .collecting => q.state = .initialized ∧ CchCollecting n c f srcs q.fwd ∧ CchCollecting n c b tgts q.bwd
  | .ran => q.state = .run ∧ ∃ Ls Lt DF PF DB PB best, CchHalfOk n c q.fwd Ls DF PF ∧
      SInv n c.upTail c.upHead f srcs Ls Ls DF PF ∧ CchHalfOk n c q.bwd Lt DB PB ∧
      SInv n c.upTail c.upHead b tgts Lt Lt DB PB ∧ Best DF DB Ls Lt best ∧ q.meeting = best.2
  | .toTargets ts false => q.state = .targetPinned ∧ (∀ t ∈ ts, t < n) ∧ CchCollecting n c f srcs q.fwd ∧
      CchPinned n c (ts.map (fn c.rank)) q.bwd
  | .toTargets ts true => q.state = .targetRun ∧ (∀ t ∈ ts, t < n) ∧ CchPinnedRan n c f b srcs (ts.map (fn c.rank)) q.fwd q.bwd
  | .toSources ts false => q.state = .sourcePinned ∧ (∀ t ∈ ts, t < n) ∧ CchCollecting n c b tgts q.bwd ∧
      CchPinned n c (ts.map (fn c.rank)) q.fwd
  | .toSources ts true => q.state = .sourceRun ∧ (∀ t ∈ ts, t < n) ∧ CchPinnedRan n c b f tgts (ts.map (fn c.rank)) q.bwd q.fwd

structure CchRep (heap : Nat → Cch) (q : CchQuery) (s : QState) : Prop where
  ex : ∃ on rt rh U f b, q.on = some on ∧ on.cch = heap on.addr ∧ HandleOk on s.graph rt rh U f b ∧
    CchModeRep s.graph.n on.cch f b (ranked on.cch.rank s.sources) (ranked on.cch.rank s.targets) q s.mode
  srcLt : ∀ p ∈ s.sources, p.1 < s.graph.n
  tgtLt : ∀ p ∈ s.targets, p.1 < s.graph.n

theorem CchHalfOk.congr {n : Nat} {c : Cch} {h : CchHalf} {L : List Nat} {D D' P : Nat → Nat} (ok : CchHalfOk n c h L D P)
    (hd : ∀ x, x < n → D x = D' x) : CchHalfOk n c h L D' P :=
  ⟨⟨ok.dist.1, fun a ha => by rw [ok.dist.2 a ha, hd a ha]⟩, ok.pred, ok.flags, ok.space⟩

theorem CchHalfOk.setDist {n : Nat} {c : Cch} {h : CchHalf} {L d : List Nat} {D D' P : Nat → Nat} (ok : CchHalfOk n c h L D P)
    (hd : Is d n D') : CchHalfOk n c { h with dist := d } L D' P := ⟨hd, ok.pred, ok.flags, ok.space⟩

theorem CchCollecting.blank {n : Nat} {c : Cch} {h : CchHalf} {D P : Nat → Nat} (ok : CchHalfOk n c h [] D P)
    (hd : ∀ x, x < n → D x = infWeight) (h0 : h.nodes = []) (W : Nat → Nat) : CchCollecting n c W [] h :=
  ⟨[], noLabel, P, ok.congr hd, sinv_new _ _ _ _ _, fun _ => h0⟩

theorem CchCollecting.add {n : Nat} {c : Cch} (ht : TreeOk n c) {h : CchHalf} {W : Nat → Nat} {S : List (Nat × Nat)}
    (hc : CchCollecting n c W S h) {ext x d : Nat} (hr : rd c.rank ext = some x) (hx : x < n) (hd : d < infWeight) :
    ∃ h', h.addNode c.rank c.parent ext d = some h' ∧ CchCollecting n c W (S ++ [(x, d)]) h' := by
  obtain ⟨L, D, P, ok, hi, _⟩ := hc
  obtain ⟨h', L', D', P', e, ok', hi'⟩ := addNode_spec ht ok hi hr hx hd
  exact ⟨h', e, L', D', P', ok', hi', fun h0 => by simp at h0⟩

/-- What a reset relies on. -/
structure Halves (n : Nat) (c : Cch) (q : CchQuery) (Ls Lt : List Nat) (D E P Q : Nat → Nat) : Prop where
  fwd : CchHalfOk n c q.fwd Ls D P
  bwd : CchHalfOk n c q.bwd Lt E Q
  outF : ∀ x, x < n → x ∉ Ls → D x = infWeight ∨ (x ∈ Lt ∧ (q.state = .targetPinned ∨ q.state = .targetRun))
  outB : ∀ x, x < n → x ∉ Lt → E x = infWeight ∨ (x ∈ Ls ∧ (q.state = .sourcePinned ∨ q.state = .sourceRun))

theorem CchModeRep.halves {n : Nat} {c : Cch} {f b : Nat → Nat} {srcs tgts : List (Nat × Nat)} {q : CchQuery} {md : QMode}
    (hm : CchModeRep n c f b srcs tgts q md) : ∃ Ls Lt D E P Q, Halves n c q Ls Lt D E P Q := by
  match md, hm with
  | .collecting, ⟨_, ⟨L1, D1, P1, h1, i1, _⟩, ⟨L2, D2, P2, h2, i2, _⟩⟩ =>
    exact ⟨_, _, _, _, _, _, h1, h2, fun x hx hL => Or.inl (i1.out x hx hL), fun x hx hL => Or.inl (i2.out x hx hL)⟩
  | .ran, ⟨_, Ls, Lt, DF, PF, DB, PB, best, h1, i1, h2, i2, _⟩ =>
    exact ⟨_, _, _, _, _, _, h1, h2, fun x hx hL => Or.inl (i1.out x hx hL), fun x hx hL => Or.inl (i2.out x hx hL)⟩
  | .toTargets ts false, ⟨_, _, ⟨L1, D1, P1, h1, i1, _⟩, ⟨L2, P2, h2, _⟩⟩ =>
    exact ⟨_, _, _, _, _, _, h1, h2, fun x hx hL => Or.inl (i1.out x hx hL), fun x hx hL => Or.inl rfl⟩
  | .toSources ts false, ⟨_, _, ⟨L1, D1, P1, h1, i1, _⟩, ⟨L2, P2, h2, _⟩⟩ =>
    exact ⟨_, _, _, _, _, _, h2, h1, fun x hx hL => Or.inl rfl, fun x hx hL => Or.inl (i1.out x hx hL)⟩
  | .toTargets ts true, ⟨hs, _, Ls, Lt, D, P, Pt, DF, PF, h1, h2, _, i1, i2⟩ =>
    refine ⟨_, _, _, _, _, _, h1, h2, fun x hx hL => ?_, fun x hx hL => Or.inl rfl⟩
    by_cases hx' : x ∈ Lt
    · exact Or.inr ⟨hx', Or.inr hs⟩
    · exact Or.inl (by rw [i2.other x hx']; exact i1.out x hx hL)
  | .toSources ts true, ⟨hs, _, Ls, Lt, D, P, Pt, DF, PF, h1, h2, _, i1, i2⟩ =>
    refine ⟨_, _, _, _, _, _, h2, h1, fun x hx hL => Or.inl rfl, fun x hx hL => ?_⟩
    by_cases hx' : x ∈ Lt
    · exact Or.inr ⟨hx', Or.inr hs⟩
    · exact Or.inl (by rw [i2.other x hx']; exact i1.out x hx hL)

theorem cchReset_spec {n : Nat} {q : CchQuery} {on : CchHandle} (ht : TreeOk n on.cch) (hon : q.on = some on)
    {Ls Lt : List Nat} {D E P Q : Nat → Nat} (h : Halves n on.cch q Ls Lt D E P Q) (f b : Nat → Nat) :
    ∃ q', q.reset = some q' ∧ q'.on = some on ∧ CchModeRep n on.cch f b [] [] q' .collecting := by
  have key : ∃ q1 D1 E1, CchQuery.clearPinned on.cch q = some q1 ∧ q1.on = some on ∧ CchHalfOk n on.cch q1.fwd Ls D1 P ∧
      CchHalfOk n on.cch q1.bwd Lt E1 Q ∧ (∀ x, x < n → x ∉ Ls → D1 x = infWeight) ∧ (∀ x, x < n → x ∉ Lt → E1 x = infWeight) := by
    unfold CchQuery.clearPinned
    by_cases h1 : q.state = .targetPinned ∨ q.state = .targetRun
    · rw [if_pos h1]
      obtain ⟨d, e, hd⟩ := clearDistances_spec ht h.bwd h.fwd.dist
      simp only [e, Option.bind_eq_bind, Option.bind_some]
      refine ⟨_, _, _, rfl, hon, h.fwd.setDist hd, h.bwd, ?_, ?_⟩
      · intro x hx hL
        by_cases hxt : x ∈ Lt
        · exact if_pos hxt
        · refine (if_neg hxt).trans ?_
          rcases h.outF x hx hL with h2 | ⟨h2, _⟩
          · exact h2
          · exact absurd h2 hxt
      · intro x hx hL
        rcases h.outB x hx hL with h2 | ⟨_, h2⟩
        · exact h2
        · rcases h1 with h1 | h1 <;> rcases h2 with h2 | h2 <;> (rw [h1] at h2; cases h2)
    · rw [if_neg h1]
      by_cases h2 : q.state = .sourcePinned ∨ q.state = .sourceRun
      · rw [if_pos h2]
        obtain ⟨d, e, hd⟩ := clearDistances_spec ht h.fwd h.bwd.dist
        simp only [e, Option.bind_eq_bind, Option.bind_some]
        refine ⟨_, _, _, rfl, hon, h.fwd, h.bwd.setDist hd, ?_, ?_⟩
        · intro x hx hL
          rcases h.outF x hx hL with h3 | ⟨_, h3⟩
          · exact h3
          · exact absurd h3 h1
        · intro x hx hL
          by_cases hxt : x ∈ Ls
          · exact if_pos hxt
          · refine (if_neg hxt).trans ?_
            rcases h.outB x hx hL with h3 | ⟨h3, _⟩
            · exact h3
            · exact absurd h3 hxt
      · rw [if_neg h2]
        refine ⟨_, _, _, rfl, hon, h.fwd, h.bwd, ?_, ?_⟩
        · intro x hx hL
          rcases h.outF x hx hL with h3 | ⟨_, h3⟩
          · exact h3
          · exact absurd h3 h1
        · intro x hx hL
          rcases h.outB x hx hL with h3 | ⟨_, h3⟩
          · exact h3
          · exact absurd h3 h2
  obtain ⟨q1, D1, E1, e1, hon1, h1, h2, o1, o2⟩ := key
  obtain ⟨f', e2, g1, g2⟩ := clear_spec ht h1
  obtain ⟨b', e3, g3, g4⟩ := clear_spec ht h2
  refine ⟨{ q1 with fwd := f', bwd := b', state := .initialized }, ?_, hon1, rfl,
    .blank g1 (fun x hx => ?_) g2 f, .blank g3 (fun x hx => ?_) g4 b⟩
  · unfold CchQuery.reset
    simp only [hon, e1, e2, e3, Option.bind_eq_bind, Option.bind_some]
  · by_cases hL : x ∈ Ls
    · exact if_pos hL
    · exact (if_neg hL).trans (o1 x hx hL)
  · by_cases hL : x ∈ Lt
    · exact if_pos hL
    · exact (if_neg hL).trans (o2 x hx hL)

/-! ### Answers -/

section
variable {on : CchHandle} {G : QGraph} {rt rh : List Nat} {U : List Bool} {f b : Nat → Nat}

/-- A lower bound for every route. -/
theorem HandleOk.low (h : HandleOk on G rt rh U f b) {srcs tgts : List (Nat × Nat)} (hsrc : ∀ p ∈ srcs, p.1 < G.n)
    (htgt : ∀ p ∈ tgts, p.1 < G.n) {Ls Lt : List Nat} {DF PF DB PB : Nat → Nat}
    (iF : SInv G.n on.cch.upTail on.cch.upHead f (ranked on.cch.rank srcs) Ls Ls DF PF)
    (iB : SInv G.n on.cch.upTail on.cch.upHead b (ranked on.cch.rank tgts) Lt Lt DB PB) {best : Nat × Nat}
    (hb : Best DF DB Ls Lt best) : NoRouteBelow G.arcs srcs tgts best.1 := by
  rintro s t p d ⟨ds, dt, l, h1, h2, h3, rfl⟩
  have hs := hsrc _ h1
  have ht := htgt _ h2
  obtain ⟨m, l1, l2, w1, w2, hle⟩ := h.updown hs h3
  have b1 := iF.complete h.ctxF h.relF w1 ds (h.rank_lt hs) (iF.src _ _ (mem_ranked.2 ⟨s, h1, rfl⟩))
  have b2 := iB.complete h.ctxB h.relB w2 dt (h.rank_lt ht) (iB.src _ _ (mem_ranked.2 ⟨t, h2, rfl⟩))
  have hm : m < G.n := by
    have key : ∀ {u v k : Nat}, RWalk (innerF G.n (listArcs rt rh on.inputWeight)) u v k → u < G.n → v < G.n := by
      intro u v k hw
      induction hw with
      | nil => exact id
      | cons ha _ ih => intro _; exact ih ha.2.1
    exact key w1 (h.rank_lt hs)
  have hbl := hb.le
  by_cases hmt : m ∈ Lt
  · by_cases hms : m ∈ Ls
    · have := hb.low m hmt hms
      omega
    · have := iF.out m hm hms
      omega
  · have := iB.out m hm hmt
    omega

/-- The path of a query visits no node twice. -/
theorem HandleOk.simple (h : HandleOk on G rt rh U f b) {S T : List (Nat × Nat)} {Ls Lt : List Nat} {DF PF DB PB : Nat → Nat}
    (tF : Topo on.cch.parent Ls) (tB : Topo on.cch.parent Lt) (iF : SInv G.n on.cch.upTail on.cch.upHead f S Ls Ls DF PF)
    (iB : SInv G.n on.cch.upTail on.cch.upHead b T Lt Lt DB PB) {best : Nat × Nat} (hb : Best DF DB Ls Lt best)
    (hlt : best.1 < infWeight) (hm : best.2 < G.n) {la lb : List Nat} {za zb : Nat} {sa sb : List Segment}
    (ca : UpChain on.cch.upTail on.cch.upHead f S DF PF best.2 la za)
    (cb : UpChain on.cch.upTail on.cch.upHead b T DB PB best.2 lb zb)
    (ua : unpackUp on.cch on.metric la = some sa) (ub : unpackDown on.cch on.metric lb = some sb) :
    ((sa ++ sb).map Segment.node ++ [zb]).Nodup := by
  obtain ⟨hmt, hms, hsum⟩ := hb.some_ hlt
  have harc : ∀ x y, HasArc on.cch.upTail on.cch.upHead x y → Anc on.cch.parent x y := fun x y ha =>
    anc_of_fill h.cus.small h.cus.ok _ x y (Nat.le_refl _) (h.cus.ok.sound x y ha) (h.cus.ok.graph.up.up x y ha).2
  have relF : ∀ x y K l, x < y → (∀ v ∈ K, v < x) → LWalk (listArcs rt rh on.inputWeight) (x :: K ++ [y]) l →
      ∃ a, rd on.cch.upTail a = some x ∧ rd on.cch.upHead a = some y ∧ f a ≤ l := fun x y K l h1 h2 h3 => h.cus.relUp h1 h2 h3
  have relB : ∀ x y K l, x < y → (∀ v ∈ K, v < x) → LWalk (revArcs (listArcs rt rh on.inputWeight)) (x :: K ++ [y]) l →
      ∃ a, rd on.cch.upTail a = some x ∧ rd on.cch.upHead a = some y ∧ b a ≤ l := by
    intro x y K l h1 h2 h3
    have h4 := h3.reverse
    exact h.cus.relDown (K := K.reverse) h1 (fun v hv => h2 v (List.mem_reverse.1 hv)) (by simpa [revArcs_revArcs] using h4)
  obtain ⟨lenF, w1, d1, k1, n1, q1, anc1⟩ := chain_simple h.ctxF h.cus.tree harc relF (E := Customized.innerOf on true)
    (fun a p x hp hx hl => (h.cus.innerF_spec hp hx hl).choose_spec.2.2) tF iF ca (by omega) hm
  obtain ⟨lenB, w2, d2, k2, n2, q2, anc2⟩ := chain_simple h.ctxB h.cus.tree harc relB
    (E := fun p x => (Customized.innerOf on false p x).reverse)
    (fun a p x hp hx hl => by
      obtain ⟨_, _, _, g1, g2, g3⟩ := h.cus.innerB_spec hp hx hl
      refine ⟨?_, fun v hv => g2 v (List.mem_reverse.1 hv), List.nodup_reverse.2 g3⟩
      simpa using g1.reverse) tB iB cb (by omega) hm
  obtain ⟨sa', ua', nodesA⟩ := h.cus.unpackUp_nodes ca (by omega)
  obtain ⟨sb', ub', nodesB⟩ := h.cus.unpackDown_nodes cb (by omega)
  rw [ua] at ua'
  cases ua'
  rw [ub] at ub'
  cases ub'
  rw [List.map_append, List.append_assoc, nodesA, nodesB]
  generalize chainInner (Customized.innerOf on true) la = K at w1 k1 n1 q1
  generalize chainInner (fun p x => (Customized.innerOf on false p x).reverse) lb = M at w2 k2 n2 q2
  have w3 : LWalk (listArcs rt rh on.inputWeight) (best.2 :: M.reverse) lenB := by simpa [revArcs_revArcs] using w2.reverse
  have w4 := LWalk.append w3 w1
  have hdis : ∀ u ∈ K, u ∉ M.reverse := by
    refine glue (pre := []) (post := []) (z := best.2) (by simpa using w4) k1 (fun v hv => k2 v (List.mem_reverse.1 hv)) ?_
    intro z K1 K4 l1 l2 hz g1 g2 g3 g4 g5 g6
    have hh1 : (K1 ++ [z]).head? = some za := by
      rw [g5]
      cases K with
      | nil => cases K1 <;> simp at g5
      | cons => simpa using q1
    have hh2 : (K4.reverse ++ [z]).head? = some zb := by
      have e : (K4.reverse ++ [z]).head? = (z :: K4).getLast? := by rw [← List.reverse_cons, List.head?_reverse]
      rw [e, g6, List.getLast?_reverse]
      cases M with
      | nil => simp at g6
      | cons => simpa using q2
    obtain ⟨r1, a1⟩ := lowWalk h.ctxF harc relF iF (z + 1) z K1 za l1 (Nat.lt_succ_self _) (by omega) g1 (by simpa using g3) hh1
    obtain ⟨r2, a2⟩ := lowWalk h.ctxB harc relB iB (z + 1) z K4.reverse zb l2 (Nat.lt_succ_self _) (by omega)
      (fun v hv => g2 v (List.mem_reverse.1 hv)) (by have := g4.reverse; simpa using this) hh2
    by_cases hzs : z ∈ Ls
    · by_cases hzt : z ∈ Lt
      · obtain ⟨pre1, pre2, hsp⟩ := List.append_of_mem hmt
        have hanc : Anc on.cch.parent z best.2 := by
          rcases a2.total anc2 with r | r
          · exact r
          · have := r.le h.cus.tree; omega
        have hbef : z ∈ pre1 := by
          rw [hsp] at tB hzt
          exact hanc.before tB (by omega) hzt
        have := hb.first hlt pre1 pre2 hsp z hbef hzs
        omega
      · have := iB.out z (by omega) hzt
        omega
    · have := iF.out z (by omega) hzs
      omega
  rw [List.nodup_append]
  refine ⟨n1, List.nodup_cons.2 ⟨fun hm => by have := k2 _ (List.mem_reverse.1 hm); omega, List.nodup_reverse.2 n2⟩, ?_⟩
  rintro u hu v hv rfl
  rcases List.mem_cons.1 hv with hv | hv
  · have := k1 u hu; omega
  · exact hdis u hu hv

theorem cchResults_spec (h : HandleOk on G rt rh U f b) {q : CchQuery} (hon : q.on = some on) {srcs tgts : List (Nat × Nat)}
    (hsrc : ∀ p ∈ srcs, p.1 < G.n) (htgt : ∀ p ∈ tgts, p.1 < G.n)
    (hm : CchModeRep G.n on.cch f b (ranked on.cch.rank srcs) (ranked on.cch.rank tgts) q .ran) :
    ∃ r : QResult, q.getDistance = some r.distance ∧ q.getUsedSource = some r.source ∧ q.getUsedTarget = some r.target ∧
      q.getArcPath = some r.arcs ∧ q.getNodePath = some r.nodes ∧ r.Correct G.arcs srcs tgts ∧ r.nodes.Nodup := by
  obtain ⟨hst, Ls, Lt, DF, PF, DB, PB, best, h1, i1, h2, i2, hb, hme⟩ := hm
  have hlow := h.low hsrc htgt i1 i2 hb
  have hcs : (decide (q.state = .run)) = true := by rw [hst]; rfl
  rcases Nat.lt_or_eq_of_le hb.le with hlt | heq
  · obtain ⟨hmt, hms, hsum⟩ := hb.some_ hlt
    have hmn : best.2 < G.n := h1.lt h.cus.tree _ hms
    have hne : best.2 ≠ invalidId := by have := h.cus.small; omega
    have hrl := h.cus.ok.nodes
    obtain ⟨la, za, ca⟩ := i1.chain h.ctxF (best.2 + 1) best.2 (Nat.lt_succ_self _) hmn (by omega)
    obtain ⟨lb, zb, cb⟩ := i2.chain h.ctxB (best.2 + 1) best.2 (Nat.lt_succ_self _) hmn (by omega)
    have ea := cchChain_spec h.cus.small h1.pred ca (on.cch.rank.length + 1) hmn (by omega)
    have eb := cchChain_spec h.cus.small h2.pred cb (on.cch.rank.length + 1) hmn (by omega)
    obtain ⟨sa, na, ua, wa, a1, a2, _, a4⟩ := h.cus.unpackUp_spec ca (by omega) hmn
    obtain ⟨sb, nb, ub, wb, b1, b2, _, b4⟩ := h.cus.unpackDown_spec cb (by omega) hmn
    obtain ⟨p, ns, e1, e2, hw, hns⟩ := h.ofRank_seg (wa.append wb)
    obtain ⟨x, hx, rfl⟩ := mem_ranked.1 a2
    obtain ⟨y, hy, rfl⟩ := mem_ranked.1 b2
    have hxn := hsrc _ hx
    have hyn := htgt _ hy
    have hnd : (ns ++ [y]).Nodup := by
      have hs := h.simple h1.space.topo h2.space.topo i1 i2 hb hlt hmn ca cb ua ub
      have hk := mapM_keys (k := Segment.node) (k' := fn on.cch.rank) (fun s o ho => fn_of_rd ((h.inv.2 _ _).1 ho)) e2
      rw [← hk] at hs
      refine List.Nodup.of_map (fn on.cch.rank) ?_
      simpa using hs
    rw [h.order_rank hxn, h.order_rank hyn] at hw hns
    have ho1 : rd on.cch.order (fn on.cch.rank x) = some x := by
      have := h.order_rd a4; rw [h.order_rank hxn] at this; exact this
    have ho2 : rd on.cch.order (fn on.cch.rank y) = some y := by
      have := h.order_rd b4; rw [h.order_rank hyn] at this; exact this
    have hseg : q.segments on = some (sa ++ sb, fn on.cch.rank y) := by
      simp only [CchQuery.segments, hme, ea, ua, eb, ub, Option.bind_eq_bind, Option.bind_some]
    have hadd : add32 (DF best.2) (DB best.2) = DF best.2 + DB best.2 := add32_le (by omega) (by omega)
    refine ⟨⟨best.1, x, y, p, ns ++ [y]⟩, ?_, ?_, ?_, ?_, ?_, Or.inl ⟨hlt, ⟨_, _, _, hx, hy, hw, ?_⟩, hns, hlow⟩, hnd⟩
    · simp only [CchQuery.getDistance, hcs, check_true, hme, hne, if_false, h1.dist.2 _ hmn, h2.dist.2 _ hmn, hadd, ← hsum,
        Option.bind_eq_bind, Option.bind_some]
    · simp only [CchQuery.getUsedSource, hon, hcs, check_true, hme, hne, if_false, ea, ho1, Option.bind_eq_bind, Option.bind_some]
    · simp only [CchQuery.getUsedTarget, hon, hcs, check_true, hme, hne, if_false, eb, ho2, Option.bind_eq_bind, Option.bind_some]
    · simp only [CchQuery.getArcPath, hon, hcs, check_true, hme, hne, if_false, hseg, e1, Option.bind_eq_bind, Option.bind_some]
    · simp only [CchQuery.getNodePath, hon, hcs, check_true, hme, hne, if_false, hseg, e2, ho2, Option.bind_eq_bind, Option.bind_some]
    · show best.1 = _
      omega
  · have hme' : q.meeting = invalidId := hme.trans (hb.none_ heq)
    rw [heq] at hlow
    refine ⟨⟨infWeight, invalidId, invalidId, [], []⟩, ?_, ?_, ?_, ?_, ?_, Or.inr ⟨rfl, rfl, rfl, rfl, rfl, hlow⟩, List.nodup_nil⟩
    · simp [CchQuery.getDistance, hcs, hme']
    · simp [CchQuery.getUsedSource, hon, hcs, hme']
    · simp [CchQuery.getUsedTarget, hon, hcs, hme']
    · simp [CchQuery.getArcPath, hon, hcs, hme']
    · simp [CchQuery.getNodePath, hon, hcs, hme']

/-- The distances of a run to pinned targets. -/
theorem HandleOk.toTarget (h : HandleOk on G rt rh U f b) {srcs : List (Nat × Nat)} (hsrc : ∀ p ∈ srcs, p.1 < G.n)
    {Ls Lt : List Nat} {D DF PF : Nat → Nat} (hLt : Topo on.cch.parent Lt)
    (iF : SInv G.n on.cch.upTail on.cch.upHead f (ranked on.cch.rank srcs) Ls Ls DF PF)
    (iP : PInv G.n on.cch.upTail on.cch.upHead b DF Lt D) {t : Nat} (ht : t < G.n) (hm : fn on.cch.rank t ∈ Lt) :
    ∃ u, ToTarget G.arcs srcs t (D (fn on.cch.rank t)) u := by
  have hrt := h.rank_lt ht
  have hlow : NoRouteBelow G.arcs srcs [(t, 0)] (D (fn on.cch.rank t)) := by
    rintro s t' p d ⟨ds, dt, l, h1, h2, h3, rfl⟩
    rw [List.mem_singleton] at h2
    cases h2
    have hs := hsrc _ h1
    obtain ⟨m, l1, l2, w1, w2, hle⟩ := h.updown hs h3
    have b1 := iF.complete h.ctxF h.relF w1 ds (h.rank_lt hs) (iF.src _ _ (mem_ranked.2 ⟨s, h1, rfl⟩))
    have b2 := iP.complete h.ctxB h.relB (hLt.closed h.ctxB) w2 hm
    omega
  have hle : D (fn on.cch.rank t) ≤ infWeight := Nat.le_trans (iP.le _) (iF.le _ hrt)
  rcases Nat.lt_or_eq_of_le hle with hlt | heq
  · obtain ⟨p, l, w, hp, hd⟩ := iP.sound _ hrt hlt
    obtain ⟨z, p1, l1, g1, g2, g3, w1⟩ := h.labF iF hp (by omega)
    obtain ⟨p2, w2⟩ := h.upB w (by omega)
    obtain ⟨x, hx, rfl⟩ := mem_ranked.1 g1
    have hw := walk_append w1 w2
    rw [h.order_rank (hsrc _ hx), h.order_rank ht] at hw
    exact ⟨x, Or.inl ⟨hlt, ⟨_, _, 0, _, hx, by simp, hw, by omega⟩, hlow⟩⟩
  · rw [heq] at hlow ⊢
    exact ⟨noNode, Or.inr ⟨rfl, rfl, hlow⟩⟩

theorem HandleOk.toSource (h : HandleOk on G rt rh U f b) {tgts : List (Nat × Nat)} (htgt : ∀ p ∈ tgts, p.1 < G.n)
    {Ls Lt : List Nat} {D DB PB : Nat → Nat} (hLs : Topo on.cch.parent Ls)
    (iB : SInv G.n on.cch.upTail on.cch.upHead b (ranked on.cch.rank tgts) Lt Lt DB PB)
    (iP : PInv G.n on.cch.upTail on.cch.upHead f DB Ls D) {s : Nat} (hs : s < G.n) (hm : fn on.cch.rank s ∈ Ls) :
    ∃ u, ToSource G.arcs tgts s (D (fn on.cch.rank s)) u := by
  have hrs := h.rank_lt hs
  have hlow : NoRouteBelow G.arcs [(s, 0)] tgts (D (fn on.cch.rank s)) := by
    rintro s' t p d ⟨ds, dt, l, h1, h2, h3, rfl⟩
    rw [List.mem_singleton] at h1
    cases h1
    have ht := htgt _ h2
    obtain ⟨m, l1, l2, w1, w2, hle⟩ := h.updown hs h3
    have b1 := iB.complete h.ctxB h.relB w2 dt (h.rank_lt ht) (iB.src _ _ (mem_ranked.2 ⟨t, h2, rfl⟩))
    have b2 := iP.complete h.ctxF h.relF (hLs.closed h.ctxF) w1 hm
    omega
  have hle : D (fn on.cch.rank s) ≤ infWeight := Nat.le_trans (iP.le _) (iB.le _ hrs)
  rcases Nat.lt_or_eq_of_le hle with hlt | heq
  · obtain ⟨p, l, w, hp, hd⟩ := iP.sound _ hrs hlt
    obtain ⟨z, p1, l1, g1, g2, g3, w1⟩ := h.labB iB hp (by omega)
    obtain ⟨p2, w2⟩ := h.upF w (by omega)
    obtain ⟨x, hx, rfl⟩ := mem_ranked.1 g1
    have hw := walk_append w2 w1
    rw [h.order_rank (htgt _ hx), h.order_rank hs] at hw
    exact ⟨x, Or.inl ⟨hlt, ⟨_, 0, _, _, by simp, hx, hw, by omega⟩, hlow⟩⟩
  · rw [heq] at hlow ⊢
    exact ⟨noNode, Or.inr ⟨rfl, rfl, hlow⟩⟩

/-- Reading the labels of pinned nodes. -/
theorem readPinned {n : Nat} {d rs : List Nat} {D : Nat → Nat} (hd : Is d n D) {ts rank : List Nat} (hrs : rs = ts.map (fn rank))
    (hlt : ∀ t ∈ ts, fn rank t < n) :
    ∃ ds, rs.mapM (rd d) = some ds ∧ ds.length = ts.length ∧
      ∀ (i t v : Nat), ts[i]? = some t → ds[i]? = some v → v = D (fn rank t) := by
  subst hrs
  obtain ⟨ds, e, h1, h2, _⟩ := mapM_spec (f := rd d) (l := ts.map (fn rank)) (by
    intro x hx
    obtain ⟨t, ht, rfl⟩ := List.mem_map.1 hx
    exact ⟨_, hd.2 _ (hlt t ht)⟩)
  refine ⟨ds, e, by simpa using h1, ?_⟩
  intro i t v ht hv
  have h3 := h2 i (fn rank t) (by unfold rd; rw [List.getElem?_map, ht]; rfl)
  rw [hd.2 _ (hlt t (List.mem_of_getElem? ht))] at h3
  exact rd_congr_some hv h3

end

/-! ### The simulation -/

/-- The calls of a history. -/
def cchCall (q : CchQuery) : QOp CchHandle → Option (CchQuery × QOut)
  | .reset => q.reset.map fun q => (q, .unit)
  | .attach h _ => (q.resetMetric h).map fun q => (q, .unit)
  | .addSource s d => (q.addSource s d).map fun q => (q, .unit)
  | .addTarget s d => (q.addTarget s d).map fun q => (q, .unit)
  | .run => q.run.map fun q => (q, .unit)
  | .results => do
    let d ← q.getDistance
    let s ← q.getUsedSource
    let t ← q.getUsedTarget
    let a ← q.getArcPath
    let p ← q.getNodePath
    some (q, .result ⟨d, s, t, a, p⟩)
  | .pinTargets ts => (q.pinTargets ts).map fun q => (q, .unit)
  | .pinSources ss => (q.pinSources ss).map fun q => (q, .unit)
  | .resetSource => q.resetSource.map fun q => (q, .unit)
  | .resetTarget => q.resetTarget.map fun q => (q, .unit)
  | .runToPinnedTargets => q.runToPinnedTargets.map fun q => (q, .unit)
  | .runToPinnedSources => q.runToPinnedSources.map fun q => (q, .unit)
  | .resultsToTargets => q.getDistancesToTargets.map fun d => (q, .lists d [])
  | .resultsToSources => q.getDistancesToSources.map fun d => (q, .lists d [])
  | .pinnedTargetCount => none
  | .pinnedSourceCount => none

/-- A handle for `G` whose hierarchy is the one stored at its address. -/
def HandleFor (heap : Nat → Cch) (on : CchHandle) (G : QGraph) : Prop :=
  on.cch = heap on.addr ∧ ∃ rt rh U f b, HandleOk on G rt rh U f b

theorem cchRep_new {heap : Nat → Cch} {on : CchHandle} {G : QGraph} (h : HandleFor heap on G) :
    CchRep heap (CchQuery.new on) (QState.fresh G) := by
  obtain ⟨ha, rt, rh, U, f, b, hk⟩ := h
  have hn := hk.cus.ok.nodes
  refine ⟨⟨on, rt, rh, U, f, b, rfl, ha, hk, rfl, ?_, ?_⟩, (fun p hp => by cases hp), (fun p hp => by cases hp)⟩
  · unfold CchQuery.new
    rw [hn]
    exact .blank (halfOk_new _ _) (fun _ _ => rfl) rfl _
  · unfold CchQuery.new
    rw [hn]
    exact .blank (halfOk_new _ _) (fun _ _ => rfl) rfl _

theorem ranked_snoc (rank : List Nat) (l : List (Nat × Nat)) (x d : Nat) :
    ranked rank (l ++ [(x, d)]) = ranked rank l ++ [(fn rank x, d)] := by simp [ranked]

theorem cchCall_spec {heap : Nat → Cch} {q : CchQuery} {s : QState} {op : QOp CchHandle} (hc : CchRep heap q s)
    (hp : CchPre (HandleFor heap) s op) :
    ∃ q' out s', cchCall q op = some (q', out) ∧ CchStep s op out s' ∧ CchRep heap q' s' := by
  obtain ⟨⟨on, rt, rh, U, f, b, hon, haddr, hk, hm⟩, hsrc, htgt⟩ := hc
  have ht := hk.cus.tree
  have hn := hk.cus.ok.nodes
  cases op with
  | reset =>
    obtain ⟨Ls, Lt, D, E, P, Q, hh⟩ := hm.halves
    obtain ⟨q', e, hon', hm'⟩ := cchReset_spec ht hon hh f b
    exact ⟨q', .unit, _, by simp [cchCall, e], ⟨rfl, rfl⟩, ⟨on, rt, rh, U, f, b, hon', haddr, hk, hm'⟩,
      (fun p hp => by cases hp), (fun p hp => by cases hp)⟩
  | attach h' G' =>
    have hv : HandleFor heap h' G' := hp
    by_cases hadr : on.addr = h'.addr
    · obtain ⟨ha', rt', rh', U', f', b', hk'⟩ := hv
      have hcc : h'.cch = on.cch := by rw [ha', ← hadr, ← haddr]
      have hGn : G'.n = s.graph.n := by
        rw [← hn, ← hk'.cus.ok.nodes, hcc]
      obtain ⟨Ls, Lt, D, E, P, Q, hh⟩ := hm.halves
      have ht' := hk'.cus.tree
      have hh' : Halves G'.n h'.cch { q with on := some h' } Ls Lt D E P Q := by
        rw [hGn, hcc]
        exact ⟨hh.fwd, hh.bwd, hh.outF, hh.outB⟩
      obtain ⟨q', e, hon', hm'⟩ := cchReset_spec (q := { q with on := some h' }) ht' rfl hh' f' b'
      refine ⟨q', .unit, _, ?_, ⟨rfl, rfl⟩, ⟨h', rt', rh', U', f', b', hon', ha', hk', hm'⟩,
        (fun p hp => by cases hp), (fun p hp => by cases hp)⟩
      simp [cchCall, CchQuery.resetMetric, hon, hadr, e]
    · refine ⟨CchQuery.new h', .unit, _, ?_, ⟨rfl, rfl⟩, cchRep_new hv⟩
      simp [cchCall, CchQuery.resetMetric, hon, hadr]
  | addSource x d =>
    obtain ⟨hx, hd, hmode⟩ := hp
    have c1 : decide (x < on.cch.rank.length) = true := by rw [hn]; simpa using hx
    have key : (q.state = .initialized ∨ q.state = .targetPinned) ∧
        CchCollecting s.graph.n on.cch f (ranked on.cch.rank s.sources) q.fwd := by
      rcases hmode with hmode | ⟨ts, hmode⟩
      · rw [hmode] at hm; exact ⟨Or.inl hm.1, hm.2.1⟩
      · rw [hmode] at hm; exact ⟨Or.inr hm.1, hm.2.2.1⟩
    obtain ⟨h', e, hc'⟩ := key.2.add ht (hk.rank_rd hx) (hk.rank_lt hx) hd
    have c2 : decide (q.state = .initialized ∨ q.state = .targetPinned) = true := by simpa using key.1
    refine ⟨{ q with fwd := h' }, .unit, _, ?_, ⟨rfl, rfl⟩, ⟨on, rt, rh, U, f, b, hon, haddr, hk, ?_⟩, ?_, htgt⟩
    · simp only [cchCall, CchQuery.addSource, hon, c1, c2, check_true, e, Option.bind_eq_bind, Option.bind_some, Option.map_some]
    · show CchModeRep _ _ _ _ (ranked on.cch.rank (s.sources ++ [(x, d)])) _ _ s.mode
      rw [ranked_snoc]
      rcases hmode with hmode | ⟨ts, hmode⟩
      · rw [hmode] at hm ⊢; exact ⟨hm.1, hc', hm.2.2⟩
      · rw [hmode] at hm ⊢; exact ⟨hm.1, hm.2.1, hc', hm.2.2.2⟩
    · intro p hp
      rcases List.mem_append.1 hp with hp | hp
      · exact hsrc p hp
      · rw [List.mem_singleton] at hp; rw [hp]; exact hx
  | addTarget x d =>
    obtain ⟨hx, hd, hmode⟩ := hp
    have c1 : decide (x < on.cch.rank.length) = true := by rw [hn]; simpa using hx
    have key : (q.state = .initialized ∨ q.state = .sourcePinned) ∧
        CchCollecting s.graph.n on.cch b (ranked on.cch.rank s.targets) q.bwd := by
      rcases hmode with hmode | ⟨ts, hmode⟩
      · rw [hmode] at hm; exact ⟨Or.inl hm.1, hm.2.2⟩
      · rw [hmode] at hm; exact ⟨Or.inr hm.1, hm.2.2.1⟩
    obtain ⟨h', e, hc'⟩ := key.2.add ht (hk.rank_rd hx) (hk.rank_lt hx) hd
    have c2 : decide (q.state = .initialized ∨ q.state = .sourcePinned) = true := by simpa using key.1
    refine ⟨{ q with bwd := h' }, .unit, _, ?_, ⟨rfl, rfl⟩, ⟨on, rt, rh, U, f, b, hon, haddr, hk, ?_⟩, hsrc, ?_⟩
    · simp only [cchCall, CchQuery.addTarget, hon, c1, c2, check_true, e, Option.bind_eq_bind, Option.bind_some, Option.map_some]
    · show CchModeRep _ _ _ _ _ (ranked on.cch.rank (s.targets ++ [(x, d)])) _ s.mode
      rw [ranked_snoc]
      rcases hmode with hmode | ⟨ts, hmode⟩
      · rw [hmode] at hm ⊢; exact ⟨hm.1, hm.2.1, hc'⟩
      · rw [hmode] at hm ⊢; exact ⟨hm.1, hm.2.1, hc', hm.2.2.2⟩
    · intro p hp
      rcases List.mem_append.1 hp with hp | hp
      · exact htgt p hp
      · rw [List.mem_singleton] at hp; rw [hp]; exact hx
  | run =>
    have hmode : s.mode = .collecting := hp
    rw [hmode] at hm
    obtain ⟨hst, ⟨Ls, D, P, h1, i1, _⟩, ⟨Lt, E, Q, h2, i2, _⟩⟩ := hm
    obtain ⟨d', p', DF, PF, e1, g1, g2, g3⟩ := search_spec hk.ctxF (PR := fun p P => Is p s.graph.n P)
      (fun p P y x hp hy => hp.wr hy x) h1.space.topo (h1.lt ht) h1.dist h1.pred i1
    have hF : CchHalfOk s.graph.n on.cch { q.fwd with dist := d', pred := p' } Ls DF PF := ⟨g1, g2, h1.flags, h1.space⟩
    obtain ⟨d2, p2, best, DB, PB, e2, k1, k2, k3, k4⟩ := run_spec hk.ctxB h2.space.topo (h2.lt ht) h2.dist h2.pred i2
      (f := { q.fwd with dist := d', pred := p' }) g1 g3.le h1.flags
    refine ⟨CchQuery.mk q.on { q.fwd with dist := d', pred := p' } { q.bwd with dist := d2, pred := p2 } best.2 .run, .unit, _, ?_, ⟨rfl, rfl⟩, ⟨on, rt, rh, U, f, b, hon, haddr, hk, ?_⟩, hsrc, htgt⟩
    · have c1 : decide (q.state = .initialized) = true := by rw [hst]; rfl
      simp only [cchCall, CchQuery.run, CchHalf.search, hon, c1, check_true, visit_spec _ h1.space, visit_spec _ h2.space, e1, e2,
        Option.bind_eq_bind, Option.bind_some, Option.map_some]
    · exact ⟨rfl, Ls, Lt, DF, PF, DB, PB, best, hF, g3, ⟨k1, k2, h2.flags, h2.space⟩, k3, k4, rfl⟩
  | results =>
    have hmode : s.mode = .ran := hp
    have hm0 := hm
    rw [hmode] at hm
    obtain ⟨r, r1, r2, r3, r4, r5, r6, r7⟩ := cchResults_spec hk hon hsrc htgt hm
    refine ⟨q, .result r, s, ?_, ⟨rfl, r, rfl, r6, r7⟩, ⟨on, rt, rh, U, f, b, hon, haddr, hk, hm0⟩, hsrc, htgt⟩
    simp only [cchCall, r1, r2, r3, r4, r5, Option.bind_eq_bind, Option.bind_some]
  | pinTargets ts =>
    obtain ⟨hmode, h0, _, hlt⟩ := hp
    rw [hmode] at hm
    obtain ⟨hst, hcs, ⟨Lt, E, Q, h2, i2, hnil⟩⟩ := hm
    rw [h0] at i2 hnil
    obtain ⟨h', L', e, ok', hnodes⟩ := cchPin_spec ht h2 (hnil rfl) (list := ts) (rs := ts.map (fn on.cch.rank)) (by simp)
      (fun i t hti => by
        have hm := hlt t (List.mem_of_getElem? hti)
        exact ⟨_, hk.rank_rd hm, by unfold rd at hti ⊢; rw [List.getElem?_map, hti]; rfl, hk.rank_lt hm⟩)
    have hE : ∀ x, x < s.graph.n → E x = infWeight := by
      intro x hx
      have hsp := h2.space
      rw [hnil rfl] at hsp
      exact i2.out x hx (by rw [hsp.of_nil.2]; simp)
    refine ⟨{ q with bwd := h', state := .targetPinned }, .unit, _, ?_, ⟨rfl, rfl⟩, ⟨on, rt, rh, U, f, b, hon, haddr, hk, ?_⟩, hsrc, htgt⟩
    · have c1 : decide (q.state = .initialized) = true := by rw [hst]; rfl
      simp only [cchCall, CchQuery.pinTargets, hon, c1, check_true, e, Option.bind_eq_bind, Option.bind_some, Option.map_some]
    · exact ⟨rfl, hlt, hcs, L', Q, ok'.congr hE, hnodes⟩
  | pinSources ts =>
    obtain ⟨hmode, h0, _, hlt⟩ := hp
    rw [hmode] at hm
    obtain ⟨hst, ⟨Lt, E, Q, h2, i2, hnil⟩, hcs⟩ := hm
    rw [h0] at i2 hnil
    obtain ⟨h', L', e, ok', hnodes⟩ := cchPin_spec ht h2 (hnil rfl) (list := ts) (rs := ts.map (fn on.cch.rank)) (by simp)
      (fun i t hti => by
        have hm := hlt t (List.mem_of_getElem? hti)
        exact ⟨_, hk.rank_rd hm, by unfold rd at hti ⊢; rw [List.getElem?_map, hti]; rfl, hk.rank_lt hm⟩)
    have hE : ∀ x, x < s.graph.n → E x = infWeight := by
      intro x hx
      have hsp := h2.space
      rw [hnil rfl] at hsp
      exact i2.out x hx (by rw [hsp.of_nil.2]; simp)
    refine ⟨{ q with fwd := h', state := .sourcePinned }, .unit, _, ?_, ⟨rfl, rfl⟩, ⟨on, rt, rh, U, f, b, hon, haddr, hk, ?_⟩, hsrc, htgt⟩
    · have c1 : decide (q.state = .initialized) = true := by rw [hst]; rfl
      simp only [cchCall, CchQuery.pinSources, hon, c1, check_true, e, Option.bind_eq_bind, Option.bind_some, Option.map_some]
    · exact ⟨rfl, hlt, hcs, L', Q, ok'.congr hE, hnodes⟩
  | resetSource =>
    obtain ⟨ts, r, hmode⟩ := hp
    rw [hmode] at hm
    have key : (q.state = .targetPinned ∨ q.state = .targetRun) ∧ (∀ t ∈ ts, t < s.graph.n) ∧
        ∃ Ls Lt D P Q, CchHalfOk s.graph.n on.cch q.fwd Ls D P ∧ CchHalfOk s.graph.n on.cch q.bwd Lt noLabel Q ∧
          q.bwd.nodes = ts.map (fn on.cch.rank) ∧ ∀ x, x < s.graph.n → x ∉ Ls → x ∉ Lt → D x = infWeight := by
      cases r with
      | false =>
        obtain ⟨hst, hlt, ⟨L1, D1, P1, h1, i1, _⟩, ⟨L2, P2, h2, h3⟩⟩ := hm
        exact ⟨Or.inl hst, hlt, L1, L2, D1, P1, P2, h1, h2, h3, fun x hx hL _ => i1.out x hx hL⟩
      | true =>
        obtain ⟨hst, hlt, Ls, Lt, D, P, Pt, DF, PF, h1, h2, h3, i1, i2⟩ := hm
        exact ⟨Or.inr hst, hlt, Ls, Lt, D, P, Pt, h1, h2, h3, fun x hx hL hL' => by rw [i2.other x hL']; exact i1.out x hx hL⟩
    obtain ⟨hst, hlt, Ls, Lt, D, P, Q, h1, h2, h3, hout⟩ := key
    obtain ⟨f', e1, g1, g2⟩ := clear_spec ht h1
    obtain ⟨d, e2, g3⟩ := clearDistances_spec ht h2 g1.dist
    refine ⟨{ q with fwd := { f' with dist := d }, state := .targetPinned }, .unit, _, ?_, ⟨ts, r, hmode, rfl, rfl⟩,
      ⟨on, rt, rh, U, f, b, hon, haddr, hk, rfl, hlt, .blank (g1.setDist g3) ?_ g2 _, Lt, Q, h2, h3⟩, (fun p hp => by cases hp), htgt⟩
    · have c1 : decide (q.state = .targetPinned ∨ q.state = .targetRun) = true := by simpa using hst
      simp only [cchCall, CchQuery.resetSource, hon, c1, check_true, e1, e2, Option.bind_eq_bind, Option.bind_some, Option.map_some]
    · intro x hx
      by_cases hL : x ∈ Lt
      · exact if_pos hL
      · refine (if_neg hL).trans ?_
        by_cases hL' : x ∈ Ls
        · exact if_pos hL'
        · exact (if_neg hL').trans (hout x hx hL' hL)
  | resetTarget =>
    obtain ⟨ts, r, hmode⟩ := hp
    rw [hmode] at hm
    have key : (q.state = .sourcePinned ∨ q.state = .sourceRun) ∧ (∀ t ∈ ts, t < s.graph.n) ∧
        ∃ Ls Lt D P Q, CchHalfOk s.graph.n on.cch q.bwd Ls D P ∧ CchHalfOk s.graph.n on.cch q.fwd Lt noLabel Q ∧
          q.fwd.nodes = ts.map (fn on.cch.rank) ∧ ∀ x, x < s.graph.n → x ∉ Ls → x ∉ Lt → D x = infWeight := by
      cases r with
      | false =>
        obtain ⟨hst, hlt, ⟨L1, D1, P1, h1, i1, _⟩, ⟨L2, P2, h2, h3⟩⟩ := hm
        exact ⟨Or.inl hst, hlt, L1, L2, D1, P1, P2, h1, h2, h3, fun x hx hL _ => i1.out x hx hL⟩
      | true =>
        obtain ⟨hst, hlt, Ls, Lt, D, P, Pt, DF, PF, h1, h2, h3, i1, i2⟩ := hm
        exact ⟨Or.inr hst, hlt, Ls, Lt, D, P, Pt, h1, h2, h3, fun x hx hL hL' => by rw [i2.other x hL']; exact i1.out x hx hL⟩
    obtain ⟨hst, hlt, Ls, Lt, D, P, Q, h1, h2, h3, hout⟩ := key
    obtain ⟨f', e1, g1, g2⟩ := clear_spec ht h1
    obtain ⟨d, e2, g3⟩ := clearDistances_spec ht h2 g1.dist
    refine ⟨{ q with bwd := { f' with dist := d }, state := .sourcePinned }, .unit, _, ?_, ⟨ts, r, hmode, rfl, rfl⟩,
      ⟨on, rt, rh, U, f, b, hon, haddr, hk, rfl, hlt, .blank (g1.setDist g3) ?_ g2 _, Lt, Q, h2, h3⟩, hsrc, (fun p hp => by cases hp)⟩
    · have c1 : decide (q.state = .sourcePinned ∨ q.state = .sourceRun) = true := by simpa using hst
      simp only [cchCall, CchQuery.resetTarget, hon, c1, check_true, e1, e2, Option.bind_eq_bind, Option.bind_some, Option.map_some]
    · intro x hx
      by_cases hL : x ∈ Lt
      · exact if_pos hL
      · refine (if_neg hL).trans ?_
        by_cases hL' : x ∈ Ls
        · exact if_pos hL'
        · exact (if_neg hL').trans (hout x hx hL' hL)
  | runToPinnedTargets =>
    obtain ⟨ts, hmode⟩ := hp
    rw [hmode] at hm
    obtain ⟨hst, hlt, ⟨L1, D1, P1, h1, i1, _⟩, ⟨L2, P2, h2, h3⟩⟩ := hm
    obtain ⟨h', t', DF, PF, D', e, k1, k2, k3, k4, k5⟩ := cchPinnedRun_spec ht hk.ctxF hk.ctxB h1 i1 h2
    refine ⟨{ q with fwd := h', bwd := t', state := .targetRun }, .unit, _, ?_, ⟨ts, false, hmode, rfl, rfl⟩,
      ⟨on, rt, rh, U, f, b, hon, haddr, hk, rfl, hlt, L1, L2, D', P1, P2, DF, PF, k1, k2, k3.trans h3, k4, k5⟩, hsrc, htgt⟩
    have c1 : decide (q.state = .targetPinned) = true := by rw [hst]; rfl
    simp only [cchCall, CchQuery.runToPinnedTargets, hon, c1, check_true, e, Option.bind_eq_bind, Option.bind_some, Option.map_some]
  | runToPinnedSources =>
    obtain ⟨ts, hmode⟩ := hp
    rw [hmode] at hm
    obtain ⟨hst, hlt, ⟨L1, D1, P1, h1, i1, _⟩, ⟨L2, P2, h2, h3⟩⟩ := hm
    obtain ⟨h', t', DF, PF, D', e, k1, k2, k3, k4, k5⟩ := cchPinnedRun_spec ht hk.ctxB hk.ctxF h1 i1 h2
    refine ⟨{ q with fwd := t', bwd := h', state := .sourceRun }, .unit, _, ?_, ⟨ts, false, hmode, rfl, rfl⟩,
      ⟨on, rt, rh, U, f, b, hon, haddr, hk, rfl, hlt, L1, L2, D', P1, P2, DF, PF, k1, k2, k3.trans h3, k4, k5⟩, hsrc, htgt⟩
    have c1 : decide (q.state = .sourcePinned) = true := by rw [hst]; rfl
    simp only [cchCall, CchQuery.runToPinnedSources, hon, c1, check_true, e, Option.bind_eq_bind, Option.bind_some, Option.map_some]
  | resultsToTargets =>
    obtain ⟨ts, hmode, hne⟩ := hp
    have hm0 := hm
    rw [hmode] at hm
    obtain ⟨hst, hlt, Ls, Lt, D, P, Pt, DF, PF, h1, h2, h3, i1, i2⟩ := hm
    obtain ⟨ds, e, l1, l2⟩ := readPinned h1.dist h3 (fun t htm => hk.rank_lt (hlt t htm))
    refine ⟨q, .lists ds [], s, ?_, ⟨rfl, ts, true, ds, hmode, rfl, l1, ?_⟩, ⟨on, rt, rh, U, f, b, hon, haddr, hk, hm0⟩, hsrc, htgt⟩
    · have c1 : decide (q.state = .targetRun) = true := by rw [hst]; rfl
      have c2 : decide (q.bwd.nodes ≠ []) = true := by rw [h3]; simpa using hne
      simp only [cchCall, CchQuery.getDistancesToTargets, c1, c2, check_true, e, Option.bind_eq_bind, Option.bind_some, Option.map_some]
    · intro i t d hti hdi
      rw [l2 i t d hti hdi]
      have htm := List.mem_of_getElem? hti
      refine hk.toTarget hsrc h2.space.topo i1 i2 (hlt t htm) ?_
      apply h2.space.start_mem (by rw [ht.len]; exact ht.small)
      rw [h3]
      exact List.mem_map.2 ⟨t, htm, rfl⟩
  | resultsToSources =>
    obtain ⟨ts, hmode, hne⟩ := hp
    have hm0 := hm
    rw [hmode] at hm
    obtain ⟨hst, hlt, Ls, Lt, D, P, Pt, DF, PF, h1, h2, h3, i1, i2⟩ := hm
    obtain ⟨ds, e, l1, l2⟩ := readPinned h1.dist h3 (fun t htm => hk.rank_lt (hlt t htm))
    refine ⟨q, .lists ds [], s, ?_, ⟨rfl, ts, true, ds, hmode, rfl, l1, ?_⟩, ⟨on, rt, rh, U, f, b, hon, haddr, hk, hm0⟩, hsrc, htgt⟩
    · have c1 : decide (q.state = .sourceRun) = true := by rw [hst]; rfl
      have c2 : decide (q.fwd.nodes ≠ []) = true := by rw [h3]; simpa using hne
      simp only [cchCall, CchQuery.getDistancesToSources, c1, c2, check_true, e, Option.bind_eq_bind, Option.bind_some, Option.map_some]
    · intro i t d hti hdi
      rw [l2 i t d hti hdi]
      have htm := List.mem_of_getElem? hti
      refine hk.toSource htgt h2.space.topo i1 i2 (hlt t htm) ?_
      apply h2.space.start_mem (by rw [ht.len]; exact ht.small)
      rw [h3]
      exact List.mem_map.2 ⟨t, htm, rfl⟩
  | pinnedTargetCount => exact absurd hp id
  | pinnedSourceCount => exact absurd hp id

end RK
