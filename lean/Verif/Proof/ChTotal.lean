import Verif.Spec.BuildRun
import Verif.Proof.ChBuilt
/-! Helper lemmas: the construction of a contraction hierarchy returns. -/
namespace RK
open Spec WitnessSearch ChGraph

section
variable {n M maxPop : Nat} {g : ChGraph} {A0 : ArcMap}

theorem contractStep_light' {s s' : BuildState} {v : Nat} (h : contractStep s v = some s') (hL : s.Light M)
    (hF : s.Fits n M) : s'.Light M := by
  obtain ⟨ov, iv, eo, ei, h1, h2, _⟩ := contractStep_split h
  have e1 := emit_weight v _ _ _ h1
  have e2 := emit_weight v _ _ _ h2
  constructor
  · intro w hw
    rw [e1] at hw
    rcases List.mem_append.1 hw with hw | hw
    · exact hL.1 w hw
    · obtain ⟨a, ha, rfl⟩ := List.mem_map.1 hw
      exact hF.out_light v ov a eo ha
  · intro w hw
    rw [e2] at hw
    rcases List.mem_append.1 hw with hw | hw
    · exact hL.2 w hw
    · obtain ⟨a, ha, rfl⟩ := List.mem_map.1 hw
      exact hF.in_light v iv a ei ha

theorem BuildRun.inv (hn : n ≤ MinIDQueue.maxIds) (hg : GRep g n A0)
    (hW : ∀ x y i, A0 x y = some i → i.weight ≤ 2 * M)
    (hmid : ∀ x y i, A0 x y = some i → i.mid = invalidId) (h12 : 12 * M < u32)
    (H : ∀ C s, BuildRun n g maxPop C s → s.Fits n M) {C : List Nat} {s : BuildState}
    (h : BuildRun n g maxPop C s) : BState n M A0 C s ∧ s.Light M := by
  induction h with
  | start =>
    exact ⟨BState.init (maxPop := maxPop) hn hg hW hmid (idle_new hn), by
      constructor <;> intro w hw <;> simp [ChRows.empty] at hw⟩
  | contract hr hv hvC e ih =>
    have hL := contractStep_light' e ih.2 (H _ _ hr)
    exact ⟨contractStep_spec ih.1 hv hvC (by omega) e hL.1 hL.2, hL⟩
  | estimate hr hv e ih =>
    obtain ⟨⟨A, h1, h2, h3, h4⟩, hL⟩ := ih
    exact ⟨⟨A, h1, estimate_idle h1 hv h3 (by omega) h2 e, h3, h4⟩, hL⟩
  | level hr e ih =>
    obtain ⟨⟨A, h1, h2, h3, h4⟩, hL⟩ := ih
    exact ⟨⟨A, h1.raise e, h2, h3, h4⟩, hL⟩

/-- The premises of this section. -/
structure RunOk (n M maxPop : Nat) (g : ChGraph) (A0 : ArcMap) : Prop where
  nodes : n ≤ MinIDQueue.maxIds
  rep : GRep g n A0
  weight : ∀ x y i, A0 x y = some i → i.weight ≤ 2 * M
  mid : ∀ x y i, A0 x y = some i → i.mid = invalidId
  light : 12 * M < u32
  fits : ∀ C s, BuildRun n g maxPop C s → s.Fits n M

theorem RunOk.inv (h : RunOk n M maxPop g A0) {C : List Nat} {s : BuildState} (hr : BuildRun n g maxPop C s) :
    BState n M A0 C s ∧ s.Light M := BuildRun.inv h.nodes h.rep h.weight h.mid h.light h.fits hr

theorem RunOk.step (h : RunOk n M maxPop g A0) {C : List Nat} {s : BuildState} (hr : BuildRun n g maxPop C s) {v : Nat}
    (hv : v < n) (hvC : v ∉ C) : ∃ s', contractStep s v = some s' ∧ BuildRun n g maxPop (C ++ [v]) s' := by
  have hF := h.fits _ _ hr
  obtain ⟨s', e, _⟩ := contractStep_total (h.inv hr).1 hv (by have := h.light; omega) hF.fwd_ids hF.bwd_ids (by
    intro ov iv eo ei a ha
    rcases List.mem_append.1 ha with ha | ha
    · exact hF.in_light v iv a ei ha
    · exact hF.out_light v ov a eo ha)
  exact ⟨s', e, hr.contract hv hvC e⟩

theorem givenRank_total (h : RunOk n M maxPop g A0) {order : List Nat} (hp : IsPerm order) (hl : order.length = n) :
    ∃ s, forRange 0 n ⟨g, WitnessSearch.new n maxPop, .empty, .empty⟩ (givenRankStep order) = some s ∧
      BuildRun n g maxPop order s := by
  obtain ⟨s, e, hs⟩ := forRange_inv (f := givenRankStep order) (lo := 0) (hi := n)
    (s := ⟨g, WitnessSearch.new n maxPop, .empty, .empty⟩) (fun i s => BuildRun n g maxPop (order.take i) s)
    (Nat.zero_le n) (by simpa using BuildRun.start) (by
      intro i s _ hi hs
      obtain ⟨v, hv, hlt⟩ := hp.rd (i := i) (by omega)
      obtain ⟨s', e, hr⟩ := h.step hs (v := v) (by omega) (not_mem_take hp hv)
      refine ⟨s', by simp [givenRankStep, hv, e], ?_⟩
      rw [take_succ_rd hv]; exact hr)
  rw [List.take_of_length_le (by omega)] at hs
  exact ⟨s, e, hs⟩

/-! ### `build_ch_and_order` -/

theorem RunOk.estimate (h : RunOk n M maxPop g A0) (hh : ∀ C s, BuildRun n g maxPop C s → s.HopsFit)
    {C : List Nat} {s : BuildState} (hr : BuildRun n g maxPop C s) {v : Nat} (hv : v < n) :
    ∃ w k, estimateNodeImportance s.graph s.wit v = some (w, k) ∧ BuildRun n g maxPop C { s with wit := w } := by
  obtain ⟨⟨A, h1, h2, h3, h4⟩, hL⟩ := h.inv hr
  obtain ⟨w, k, e, _⟩ := estimate_total h1 h.nodes hv h3 (by have := h.light; omega) h2 (fun iv ov ei eo =>
    hh _ _ hr v iv ov ei eo)
  exact ⟨w, k, e, hr.estimate hv e⟩

theorem fillQueue_total (h : RunOk n M maxPop g A0) (hh : ∀ C s, BuildRun n g maxPop C s → s.HopsFit) :
    ∃ r, forRange 0 n (WitnessSearch.new n maxPop, MinIDQueue.new n) (fillQueueStep g) = some r ∧
      BuildRun n g maxPop [] ⟨g, r.1, .empty, .empty⟩ := by
  obtain ⟨r, e, hr, _⟩ := forRange_inv (f := fillQueueStep g) (lo := 0) (hi := n)
    (s := (WitnessSearch.new n maxPop, MinIDQueue.new n)) (fun i (s : WitnessSearch × MinIDQueue) =>
      BuildRun n g maxPop [] ⟨g, s.1, .empty, .empty⟩ ∧ ∃ m, MinIDQueue.Rep s.2 n m ∧ ∀ x, i ≤ x → m x = none)
    (Nat.zero_le n) ⟨BuildRun.start, _, MinIDQueue.rep_new h.nodes, fun _ _ => rfl⟩ (by
      rintro i ⟨w, q⟩ _ hi ⟨hr, m, hq, hm⟩
      obtain ⟨w', k, e, hr'⟩ := h.estimate hh hr hi
      obtain ⟨q', e2, hq'⟩ := hq.push (p := ⟨i, k⟩) hi (hm i (Nat.le_refl _))
      simp only at e e2
      refine ⟨(w', q'), by simp [fillQueueStep, e, e2], hr', _, hq', ?_⟩
      intro x hx
      rw [if_neg (by simp only; omega)]; exact hm x (by omega))
  exact ⟨r, e, hr⟩

theorem marks_total {v : Nat} (P : Nat → Prop) : ∀ (l : List ChArc) (s : List Bool × List Nat),
    (∀ a ∈ l, v ≠ a.node ∧ a.node < s.1.length ∧ P a.node) → (∀ x ∈ s.2, P x) →
    ∃ s', forEach l s (markNeighbor v) = some s' ∧ s'.1.length = s.1.length ∧ ∀ x ∈ s'.2, P x
  | [], s, _, hs => ⟨s, rfl, rfl, hs⟩
  | a :: l, s, ha, hs => by
    obtain ⟨h1, h2, h3⟩ := ha a (by simp)
    obtain ⟨b, hb⟩ := rd_isSome h2
    cases b with
    | true =>
      obtain ⟨s', e, hl, hp⟩ := marks_total P l s (fun a h => ha a (by simp [h])) hs
      exact ⟨s', by simp [forEach, markNeighbor, h1, hb, e], hl, hp⟩
    | false =>
      obtain ⟨s', e, hl, hp⟩ := marks_total P l (s.1.set a.node true, s.2 ++ [a.node])
        (fun a h => by simpa using ha a (by simp [h])) (by
          intro x hx
          rcases List.mem_append.1 hx with hx | hx
          · exact hs x hx
          · rw [List.mem_singleton.1 hx]; exact h3)
      exact ⟨s', by simp [forEach, markNeighbor, h1, hb, wr_lt h2, e], by simpa using hl, hp⟩

theorem updateKey_total {q : MinIDQueue} {m : Nat → Option Nat} (h : MinIDQueue.Rep q n m) {x : Nat} (key : Nat)
    (hx : x < n) (hm : (m x).isSome = true) : ∃ q', updateKey q x key = some q' := by
  obtain ⟨k, hk⟩ := Option.isSome_iff_exists.1 hm
  unfold updateKey
  simp only [h.containsId hx, hm, check_true, h.getKey hk, Option.bind_eq_bind, Option.bind_some]
  obtain ⟨q1, e1, _⟩ := h.increaseKey (p := ⟨x, key⟩) hk
  obtain ⟨q2, e2, _⟩ := h.decreaseKey (p := ⟨x, key⟩) hk
  rw [e1, e2]
  by_cases h1 : k < key
  · exact ⟨q1, by rw [if_pos h1]; rfl⟩
  · by_cases h2 : k > key
    · exact ⟨q2, by rw [if_neg h1, if_pos h2]; rfl⟩
    · exact ⟨q, by rw [if_neg h1, if_neg h2]⟩

theorem raise_total {g : ChGraph} {A : ArcMap} (h : GRep g n A) {x : Nat} (hx : x < n) (l : Nat) :
    ∃ g', g.raiseLevel x l = some g' := by
  have hl : x < g.level.length := by rw [h.lenLevel]; exact hx
  unfold raiseLevel
  rw [rd_fn hl]
  simp only [Option.bind_eq_bind, Option.bind_some, wr_lt hl]
  split
  · exact ⟨_, rfl⟩
  · exact ⟨_, rfl⟩

theorem updates_total (h : RunOk n M maxPop g A0) (hh : ∀ C s, BuildRun n g maxPop C s → s.HopsFit) {C : List Nat}
    {level : Nat} {m : Nat → Option Nat} (f b : ChRows) :
    ∀ (l : List Nat) (s : ChGraph × WitnessSearch × MinIDQueue × List Bool),
    BuildRun n g maxPop C ⟨s.1, s.2.1, f, b⟩ →
    (∃ m', MinIDQueue.Rep s.2.2.1 n m' ∧ ∀ y, (m' y).isSome = (m y).isSome) →
    s.2.2.2.length = n → (∀ x ∈ l, x < n ∧ (m x).isSome = true) →
    ∃ s', forEach l s (updateNeighbor level) = some s' ∧ BuildRun n g maxPop C ⟨s'.1, s'.2.1, f, b⟩
  | [], s, hr, _, _, _ => ⟨s, rfl, hr⟩
  | x :: l, s, hr, ⟨m', hq, hm'⟩, hlen, hx => by
    obtain ⟨hxn, hxm⟩ := hx x (by simp)
    obtain ⟨⟨A, h1, _⟩, _⟩ := h.inv hr
    obtain ⟨g', eg⟩ := raise_total h1 hxn level
    have hr1 := hr.level eg
    obtain ⟨w, k, ew, hr2⟩ := h.estimate hh hr1 hxn
    obtain ⟨q', eq⟩ := updateKey_total hq k hxn (by rw [hm', hxm])
    obtain ⟨m'', hq', hm''⟩ := updateKey_spec hq hxn eq
    obtain ⟨s', e, hr'⟩ := updates_total h hh (level := level) (m := m) f b l (g', w, q', s.2.2.2.set x false) hr2
      ⟨m'', hq', fun y => by rw [hm'', hm']⟩ (by simpa using hlen) (fun y hy => hx y (by simp [hy]))
    simp only at eg ew
    have ewr : wr s.2.2.2 x false = some (s.2.2.2.set x false) := wr_lt (by omega)
    exact ⟨s', by simp only [forEach, updateNeighbor, ewr, eg, ew, eq, e, Option.bind_eq_bind, Option.bind_some], hr'⟩

theorem orderStep_total (h : RunOk n M maxPop g A0) (hh : ∀ C s, BuildRun n g maxPop C s → s.HopsFit)
    {C : List Nat} {s : OrderState} (hr : BuildRun n g maxPop C s.build) (hs : OInv n M A0 C s)
    (hne : s.queue.empty = false) :
    ∃ s' v, orderStep s = some s' ∧ BuildRun n g maxPop (C ++ [v]) s'.build ∧ OInv n M A0 (C ++ [v]) s' := by
  obtain ⟨m, hq, hm⟩ := hs.queue
  have hex : ∃ id, m id ≠ none := by
    by_contra hc
    push Not at hc
    have := hq.empty_iff.2 hc
    rw [this] at hne; cases hne
  obtain ⟨q, p, e1, hme, _, hq'⟩ := hq.pop hex
  obtain ⟨A, hg, hw, hW, okf, okb, hI⟩ := hs.build
  have hv : p.id < n := (hq.pos.fwd_some _ _ hme).1
  have hvC : p.id ∉ C := (hm p.id hv).1 (by rw [hme]; rfl)
  have hcl : C.length < n := by
    have hnd : (p.id :: C).Nodup := List.nodup_cons.2 ⟨hvC, hI.nodup⟩
    have hsub : p.id :: C ⊆ List.range n := by
      intro x hx
      rcases List.mem_cons.1 hx with rfl | hx
      · exact List.mem_range.2 hv
      · exact List.mem_range.2 (hI.lt x hx)
    have := (hnd.subperm hsub).length_le
    simp at this; omega
  obtain ⟨ov, eo, ho⟩ := hg.out p.id hv
  obtain ⟨iv, ei, hi⟩ := hg.inn p.id hv
  have hP : ∀ x, (∃ i, A x p.id = some i ∨ A p.id x = some i) → x < n ∧
      ((fun id => if id = p.id then none else m id) x).isSome = true := by
    rintro x ⟨i, hx | hx⟩
    · obtain ⟨d1, d2, d3⟩ := hg.dom _ _ _ hx
      refine ⟨d1, ?_⟩
      simp only [if_neg d3]
      exact (hm x d1).2 (hI.core _ _ _ hx).1
    · obtain ⟨d1, d2, d3⟩ := hg.dom _ _ _ hx
      refine ⟨d2, ?_⟩
      simp only [if_neg (Ne.symm d3)]
      exact (hm x d2).2 (hI.core _ _ _ hx).2
  obtain ⟨m1, em1, lm1, pm1⟩ := marks_total (v := p.id) (fun x => ∃ i, A x p.id = some i ∨ A p.id x = some i) iv
    (s.isNeighbor, []) (by
      intro a ha
      have hA := (hi.mem a).1 ha
      obtain ⟨d1, d2, d3⟩ := hg.dom _ _ _ hA
      exact ⟨Ne.symm d3, by simp only; rw [hs.nb]; exact d1, _, Or.inl hA⟩) (by simp)
  obtain ⟨m2, em2, lm2, pm2⟩ := marks_total (v := p.id) (fun x => ∃ i, A x p.id = some i ∨ A p.id x = some i) ov
    m1 (by
      intro a ha
      have hA := (ho.mem a).1 ha
      obtain ⟨d1, d2, d3⟩ := hg.dom _ _ _ hA
      exact ⟨d3, by rw [lm1]; simp only; rw [hs.nb]; exact d2, _, Or.inr hA⟩) pm1
  have hl : p.id < s.build.graph.level.length := by rw [hg.lenLevel]; exact hv
  obtain ⟨b, eb, hrb⟩ := h.step hr hv hvC
  obtain ⟨r, er, hr'⟩ := updates_total h hh (level := add32 (fn s.build.graph.level p.id) 1) b.fwd b.bwd m2.2
    (b.graph, b.wit, q, m2.1) hrb ⟨_, hq', fun _ => rfl⟩
    (by simp only; rw [lm2, lm1]; exact hs.nb) (fun x hx => hP x (pm2 x hx))
  have e : orderStep s = some ⟨⟨r.1, r.2.1, b.fwd, b.bwd⟩, r.2.2.1, s.rank.set p.id s.cnt, s.order.set s.cnt p.id,
      r.2.2.2, s.cnt + 1⟩ := by
    unfold orderStep
    simp only [e1, Option.bind_eq_bind, Option.bind_some, wr_lt (v := s.rank) (i := p.id) (by rw [hs.rankLen]; exact hv),
      wr_lt (v := s.order) (i := s.cnt) (by rw [hs.orderLen, hs.cnt]; exact hcl), ei, eo, em1, em2, rd_fn hl, eb, er]
  obtain ⟨v, hO⟩ := orderStep_spec hs h.light hne e (h.inv hr').2
  have hvp : v = p.id := by
    have h1 := hO.order C.length (by simp)
    simp only at h1
    rw [rd_set (by rw [hs.orderLen, hs.cnt]; exact hcl), if_pos hs.cnt.symm] at h1
    simpa [rd] using h1.symm
  subst hvp
  exact ⟨_, _, e, hr', hO⟩

theorem orderLoop_total (h : RunOk n M maxPop g A0) (hh : ∀ C s, BuildRun n g maxPop C s → s.HopsFit) :
    ∀ (fuel : Nat) (C : List Nat) (s : OrderState), n ≤ C.length + fuel → BuildRun n g maxPop C s.build →
    OInv n M A0 C s → ∃ r C', orderLoop fuel s = some r ∧ BuildRun n g maxPop C' r.build
  | fuel, C, s, hf, hr, hs => by
    unfold orderLoop
    by_cases he : s.queue.empty = true
    · rw [if_pos he]; exact ⟨s, C, rfl, hr⟩
    · rw [if_neg he]
      obtain ⟨s', v, e, hr', hs'⟩ := orderStep_total h hh hr hs (by simpa using he)
      cases fuel with
      | zero =>
        exfalso
        obtain ⟨A, _, _, _, _, _, hI⟩ := hs'.build
        have hsub : C ++ [v] ⊆ List.range n := fun x hx => List.mem_range.2 (hI.lt x hx)
        have := (hI.nodup.subperm hsub).length_le
        simp at this; omega
      | succ fuel =>
        obtain ⟨r, C', e2, h2⟩ := orderLoop_total h hh fuel (C ++ [v]) s' (by simp; omega) hr' hs'
        exact ⟨r, C', by simp only [e, Option.bind_eq_bind, Option.bind_some, e2], h2⟩

theorem buildChAndOrder_total (h : RunOk n M maxPop g A0) (hh : ∀ C s, BuildRun n g maxPop C s → s.HopsFit) :
    ∃ rank order s C, buildChAndOrder g maxPop = some (rank, order, s) ∧ BuildRun n g maxPop C s := by
  obtain ⟨⟨w, q⟩, e1, hr⟩ := fillQueue_total h hh
  obtain ⟨hw, m, hq, hm⟩ := fillQueue_spec h.nodes h.rep h.weight (by have := h.light; omega) e1
  have h0 : OInv n M A0 [] ⟨⟨g, w, .empty, .empty⟩, q, List.replicate n 0, List.replicate n 0,
      List.replicate n false, 0⟩ :=
    ⟨BState.init (maxPop := maxPop) h.nodes h.rep h.weight h.mid hw, ⟨m, hq, fun x hx => by simp [hm x hx]⟩, rfl,
      by simp, by intro i hi; simp at hi, by simp, by intro x hx; simp at hx, by simp⟩
  obtain ⟨r, C, e2, h2⟩ := orderLoop_total h hh n [] _ (by simp) hr h0
  refine ⟨r.rank, r.order, r.build, C, ?_, h2⟩
  unfold buildChAndOrder
  rw [h.rep.lenOut]
  simp only [e1, e2, Option.bind_eq_bind, Option.bind_some]

end

/-! ### From the input arcs to the finished hierarchy -/

theorem checkChInput_total {asserts : Bool} {n : Nat} {tail head weight : List Nat} (h1 : head.length = tail.length)
    (h2 : weight.length = tail.length) (ht : ∀ x ∈ tail, x < n) (hh : ∀ x ∈ head, x < n)
    (hne : asserts = true → tail ≠ []) : checkChInput asserts n tail head weight = some () := by
  unfold checkChInput
  cases asserts with
  | false => rfl
  | true =>
    have h3 : tail ≠ [] := hne rfl
    have h4 : head ≠ [] := by
      intro hc; subst hc
      exact h3 (List.length_eq_zero_iff.1 h1.symm)
    have c3 : (decide (tail ≠ []) && tail.all fun x => decide (x < n)) = true := by simp [h3]; exact ht
    have c4 : (decide (head ≠ []) && head.all fun x => decide (x < n)) = true := by simp [h4]; exact hh
    simp only [if_true, c3, c4, h1, h2, decide_true, check_true, Option.bind_eq_bind, Option.bind_some]

theorem startGraph_spec {n : Nat} {tail head weight : List Nat} {inp : ArcCols} {g : ChGraph}
    (e1 : ArcCols.sortAndReduce n ⟨tail, head, weight, List.range head.length⟩ = some inp)
    (e2 : ChGraph.new n inp.tail inp.head inp.weight = some g) : startGraph n tail head weight = some g := by
  simp only [startGraph, identityPermutation_eq, e1, e2, Option.bind_eq_bind, Option.bind_some]

theorem build_total {n M maxPop : Nat} {tail head weight : List Nat} (asserts : Bool) (jf jb : Nat → Word)
    (hn : n ≤ MinIDQueue.maxIds) (h1 : head.length = tail.length) (h2 : weight.length = tail.length)
    (ht : ∀ x ∈ tail, x < n) (hh : ∀ x ∈ head, x < n) (hsize : tail.length ≤ invalidId)
    (hw : ∀ w ∈ weight, w ≤ 2 * M) (h12 : 12 * M < u32) (hne : asserts = true → tail ≠ [])
    (H : ∀ g, startGraph n tail head weight = some g → ∀ C s, BuildRun n g maxPop C s → s.Fits n M ∧ s.HopsFit) :
    ∃ ch, Ch.build asserts n tail head weight maxPop jf jb = some ch ∧ ch.Light M := by
  obtain ⟨inp, g, A0, fo, er, eg, hg, hA, hAw, hall, hpw, ef, hin, _⟩ := input_spec h1 h2 ht hh hsize
  have H' := H g (startGraph_spec er eg)
  have hR : RunOk n M maxPop g A0 := ⟨hn, hg, fun x y i hi => hw _ (hAw x y i hi), fun x y i hi => (hA x y i hi).1,
    h12, fun C s hr => (H' C s hr).1⟩
  obtain ⟨rank, order, s, C, eb, hr⟩ := buildChAndOrder_total hR (fun C s hr => (H' C s hr).2)
  have hL := (hR.inv hr).2
  obtain ⟨C', hs, hC, hrl, hrk⟩ := buildChAndOrder_spec hn hg hR.weight hR.mid h12 eb hL
  obtain ⟨hpre, hrows⟩ := preCh hs hC (buildChAndOrder_small eb) hL (by omega) hA hall hpw ef hin
  obtain ⟨ffo, f, bfo, b, rank', order', ch, esf, esb, eo, e, _⟩ := build_tail hn hpre hrows hrl hrk jf jb
  refine ⟨ch, ?_, ?_, ?_⟩
  · unfold Ch.build
    simp only [checkChInput_total h1 h2 ht hh hne, identityPermutation_eq, er, eg, eb, esf, esb, eo, e,
      Option.bind_eq_bind, Option.bind_some]
  · exact fun w hw => hL.1 w (sortRows_weight' esf w ((finishCh_weight' e).1 w hw))
  · exact fun w hw => hL.2 w (sortRows_weight' esb w ((finishCh_weight' e).2 w hw))

theorem buildGivenRank_total {n M maxPop : Nat} {rank tail head weight : List Nat} (asserts : Bool)
    (jf jb : Nat → Word) (hn : n ≤ MinIDQueue.maxIds) (hp : IsPerm rank) (hl : rank.length = n)
    (h1 : head.length = tail.length) (h2 : weight.length = tail.length)
    (ht : ∀ x ∈ tail, x < n) (hh : ∀ x ∈ head, x < n) (hsize : tail.length ≤ invalidId)
    (hw : ∀ w ∈ weight, w ≤ 2 * M) (h12 : 12 * M < u32) (hne : asserts = true → tail ≠ [])
    (H : ∀ g, startGraph n tail head weight = some g → ∀ C s, BuildRun n g maxPop C s → s.Fits n M) :
    ∃ ch, Ch.buildGivenRank asserts rank tail head weight maxPop jf jb = some ch ∧ ch.Light M := by
  have hn' : n ≤ invalidId := by
    have : MinIDQueue.maxIds = 1073741824 := rfl
    have : invalidId = 4294967295 := rfl
    omega
  obtain ⟨inp, g, A0, fo, er, eg, hg, hA, hAw, hall, hpw, ef, hin, _⟩ := input_spec h1 h2 ht hh hsize
  have hR : RunOk n M maxPop g A0 := ⟨hn, hg, fun x y i hi => hw _ (hAw x y i hi), fun x y i hi => (hA x y i hi).1,
    h12, H g (startGraph_spec er eg)⟩
  obtain ⟨order, eo, hl2, hp2, hinv⟩ := invertPermutation_spec hp
  obtain ⟨s, es, hr⟩ := givenRank_total hR hp2 (by omega)
  obtain ⟨hs, hL⟩ := hR.inv hr
  have hC : IsOrder n order := ⟨hp2.nodup, fun x => by
    constructor
    · intro hx; have := hp2.lt x hx; omega
    · intro hx; exact hp2.mem (by omega)⟩
  have hinv' : ∀ i x, i < n → (rd rank x = some i ↔ rd order i = some x) := by
    intro i x hi
    constructor
    · intro hx
      exact (hinv x i (by have := rd_some_lt hx; omega)).2 hx
    · intro hx
      obtain ⟨x', hx', hlt⟩ := hp2.rd (i := i) (by omega)
      have : some x = some x' := hx.symm.trans hx'
      cases this
      exact (hinv x i (by omega)).1 hx
  obtain ⟨hpre, hrows⟩ := preCh hs hC (givenRank_small es (empty_small _ _)) hL (by omega) hA hall hpw ef hin
  have hidx : ∀ x, x < n → fn rank x = order.idxOf x := by
    intro x hx
    obtain ⟨i, hi, hi'⟩ := hp.rd (i := x) (by omega)
    rw [fn_of_rd hi]
    exact (idxOf_eq_of_rd hp2.nodup ((hinv' i x (by omega)).1 hi)).symm
  obtain ⟨ch, e, _⟩ := finishCh_spec hpre hn' hp hl (by omega) hinv' (by
    intro x y w m hr
    obtain ⟨a1, a2, a3⟩ := hrows x y w m hr
    rw [hidx x a1, hidx y a2]; exact a3) jf jb
  refine ⟨ch, ?_, fun w hw => hL.1 w ((finishCh_weight' e).1 w hw), fun w hw => hL.2 w ((finishCh_weight' e).2 w hw)⟩
  unfold Ch.buildGivenRank buildChGivenRank
  simp only [hl, checkChInput_total h1 h2 ht hh hne, identityPermutation_eq, er, eg, eo, hg.lenOut, es, e,
    Option.bind_eq_bind, Option.bind_some]

end RK
