import Verif.Proof.Grow
/-! # The balanced cut (nested_dissection.cpp:285-406) -/
namespace RK
open Spec Nd BitVector

/-- The state of one side; `P` are the arcs that were processed. -/
structure GrowInv (f : GraphFragment) (us : Nat → Bool) (st P : Nat → Prop) (s : GrowState) : Prop where
  ri : ReachInv f us st P s.count s.reach s.stack
  cov : Covered f P s.reach s.stack (fun _ => False)
  pn : ∀ y ∈ s.pierce, y < f.nodeCount
  pl : ∃ L : List Nat, L.Nodup ∧ (∀ a ∈ L, P a ∧ a < f.arcCount) ∧ s.pierce.length ≤ L.length

theorem growNode_spec {f : GraphFragment} (o : FragmentOk f) {us : Nat → Bool} {isSat : Nat → Option Bool}
    (hus : ∀ a, a < f.arcCount → isSat a = some (us a)) {st P : Nat → Prop} {x b e : Nat} {s : GrowState}
    {rest : List Nat} (hs : s.stack = x :: rest) (G : GrowInv f us st P s) (hbe : b ≤ e)
    (hiff : ∀ a : Nat, f.tail[a]? = some x ↔ b ≤ a ∧ a < e) :
    ∃ s' P', forRange b e { s with count := s.count + 1, stack := rest } (growArc f isSat) = some s' ∧
      GrowInv f us st P' s' ∧ s'.count = s.count + 1 := by
  obtain ⟨I, C, hpn, L, hL1, hL2, hL3⟩ := G
  rw [hs] at I C
  obtain ⟨I1, hx, hxr, hPx⟩ := reachInv_pop I
  obtain ⟨s', e', I2, hcnt2, C2, hpn2, hpl2, hx2, hxs2⟩ := forRange_inv (lo := b) (hi := e)
    (s := ({ s with count := s.count + 1, stack := rest } : GrowState)) (f := growArc f isSat)
    (fun j s' => ReachInv f us st (fun a => P a ∨ (b ≤ a ∧ a < j)) s'.count s'.reach s'.stack ∧ s'.count = s.count + 1 ∧
      Covered f P s'.reach s'.stack (fun z => z = x) ∧ (∀ y ∈ s'.pierce, y < f.nodeCount) ∧
      (∃ L : List Nat, L.Nodup ∧ (∀ a ∈ L, (P a ∨ (b ≤ a ∧ a < j)) ∧ a < f.arcCount) ∧ s'.pierce.length ≤ L.length) ∧
      at' s'.reach x = true ∧ x ∉ s'.stack) hbe
    (by
      refine ⟨?_, rfl, ?_, hpn, ⟨L, hL1, fun a ha => ⟨Or.inl (hL2 a ha).1, (hL2 a ha).2⟩, hL3⟩, hx, hxr⟩
      · have : (fun a => P a ∨ (b ≤ a ∧ a < b)) = P := by
          funext a; apply propext; constructor
          · rintro (h | h)
            · exact h
            · omega
          · exact Or.inl
        rw [this]; exact I1
      · intro a u v hA hu hur hcur
        exact C a u v hA hu (fun h => by
          rcases List.mem_cons.1 h with h | h
          · exact hcur h
          · exact hur h) id)
    (by
      rintro j s1 h1 h2 ⟨I1, hcnt1, C1, hpn1, ⟨L1, hL1, hL2, hL3⟩, hx1, hxs1⟩
      have hj : f.tail[j]? = some x := (hiff j).2 ⟨h1, h2⟩
      have hjm : j < f.arcCount := rd_some_lt (v := f.tail) hj
      obtain ⟨y, hy⟩ := rd_isSome (v := f.head) (i := j) (by rw [o.head_len]; exact hjm)
      have hA : FragArc f j x y := ⟨hj, hy⟩
      have hyl : y < f.nodeCount := (fragArc_lt o hA).2
      have hP' : ∀ c, (P c ∨ (b ≤ c ∧ c < j + 1)) ↔ (P c ∨ (b ≤ c ∧ c < j)) ∨ c = j := by
        intro c
        rw [or_assoc]
        refine or_congr Iff.rfl ?_
        omega
      have hrl := I1.rl
      have hL2' : ∀ a ∈ L1, (P a ∨ (b ≤ a ∧ a < j + 1)) ∧ a < f.arcCount :=
        fun a ha => ⟨(hP' a).2 (Or.inl (hL2 a ha).1), (hL2 a ha).2⟩
      have hjL : (j :: L1).Nodup := by
        refine List.nodup_cons.2 ⟨?_, hL1⟩
        intro h
        rcases (hL2 j h).1 with h | h
        · exact hPx j y hA h
        · omega
      unfold growArc
      simp only [Option.bind_eq_bind]
      rw [hy, Option.bind_some, hus j hjm, Option.bind_some]
      cases hu : us j with
      | true =>
        simp only [if_true]
        have hlen := nodup_bounded_length (l := j :: L1) (n := f.arcCount) hjL (by
          intro a ha
          rcases List.mem_cons.1 ha with rfl | ha
          · exact hjm
          · exact (hL2 a ha).2)
        simp only [List.length_cons] at hlen
        unfold Scc.pushCap
        rw [if_pos (by omega), Option.bind_some]
        refine ⟨_, rfl, reachInv_skip I1 hA hx1 hxs1 (Or.inl hu) hP', hcnt1, C1, ?_, ⟨j :: L1, hjL, ?_, ?_⟩, hx1, hxs1⟩
        · intro z hz
          rcases List.mem_cons.1 hz with rfl | hz
          · exact hyl
          · exact hpn1 z hz
        · intro a ha
          rcases List.mem_cons.1 ha with rfl | ha
          · exact ⟨Or.inr ⟨h1, by omega⟩, hjm⟩
          · exact hL2' a ha
        · simp only [List.length_cons]; omega
      | false =>
        simp only [Bool.false_eq_true, if_false]
        rw [rd_at (by omega), Option.bind_some]
        cases hr : at' s1.reach y with
        | true =>
          simp only [Bool.not_true, Bool.false_eq_true, if_false]
          exact ⟨s1, rfl, reachInv_skip I1 hA hx1 hxs1 (Or.inr hr) hP', hcnt1, C1, hpn1, ⟨L1, hL1, hL2', hL3⟩, hx1, hxs1⟩
        | false =>
          simp only [Bool.not_false, if_true]
          obtain ⟨I2, hlt, hxs2, hx2⟩ := reachInv_push o I1 hA hx1 hxs1 hu hr hP'
          unfold Scc.pushCap
          rw [wr_at (by omega), Option.bind_some, if_pos hlt, Option.bind_some]
          refine ⟨_, rfl, I2, hcnt1, ?_, hpn1, ⟨L1, hL1, hL2', hL3⟩, hx2, hxs2⟩
          intro a u v hB hu' hus' hcur
          simp only at hu' hus'
          rw [at_set (by omega)] at hu'
          split at hu'
          · rename_i h
            exact absurd (h ▸ List.mem_cons_self) hus'
          · exact C1 a u v hB hu' (fun h => hus' (List.mem_cons_of_mem _ h)) hcur)
  refine ⟨s', _, e', ⟨I2, ?_, hpn2, hpl2⟩, hcnt2⟩
  intro a u v hA hu hus' _
  by_cases h : u = x
  · subst h
    exact Or.inr ((hiff a).1 hA.1)
  · exact Or.inl (C2 a u v hA hu hus' h)

theorem growLoop_spec {f : GraphFragment} (o : FragmentOk f) {us : Nat → Bool} {isSat : Nat → Option Bool}
    (hus : ∀ a, a < f.arcCount → isSat a = some (us a)) {st : Nat → Prop} : ∀ (fuel : Nat) (P : Nat → Prop)
    (s : GrowState), GrowInv f us st P s → f.nodeCount < fuel + s.count →
    ∃ s' P', growLoop f isSat fuel s = some s' ∧ GrowInv f us st P' s' ∧ s'.stack = []
  | 0, P, s, G, h => by
    have := G.ri.cnt
    have := G.ri.rl
    have := count_false_true s.reach
    omega
  | fuel + 1, P, s, G, h => by
    unfold growLoop
    cases hs : s.stack with
    | nil =>
      simp only [Option.bind_eq_bind]
      have := G.ri.cnt
      rw [hs] at this
      simp only [List.length_nil, Nat.add_zero] at this
      rw [this]
      simp only [beq_self_eq_true, check_true, Option.bind_some]
      exact ⟨s, P, rfl, G, hs⟩
    | cons x rest =>
      simp only [Option.bind_eq_bind]
      have hxl : x < f.nodeCount := by
        have := at_eq_true_lt (G.ri.mem x (by rw [hs]; exact List.mem_cons_self))
        have := G.ri.rl
        omega
      obtain ⟨b, e, hb, he, hbe, hiff⟩ := o.first_out x hxl
      have hb' : rd f.firstOut x = some b := hb
      have he' : rd f.firstOut (x + 1) = some e := he
      rw [hb', he']
      simp only [Option.bind_some]
      obtain ⟨s1, P1, e1, G1, hc1⟩ := growNode_spec o hus hs G hbe hiff
      rw [e1, Option.bind_some]
      exact growLoop_spec o hus fuel P1 s1 G1 (by omega)

theorem growStart_spec {f : GraphFragment} {start : List Bool} (hl : start.length = f.nodeCount) (us : Nat → Bool) :
    ∃ s, growStart f start = some s ∧ GrowInv f us (fun x => at' start x = true) (fun _ => False) s := by
  obtain ⟨stack, e, h1, h2, h3, h4⟩ := forRange_inv (lo := 0) (hi := f.nodeCount) (s := ([] : List Nat))
    (f := fun stack x => do
      let b ← rd start x
      if b then Scc.pushCap f.nodeCount stack x else some stack)
    (fun i stack => stack.Nodup ∧ stack.length ≤ i ∧ (∀ x, x ∈ stack ↔ x < i ∧ at' start x = true) ∧
      stack.length = (start.take i).count true) (Nat.zero_le _)
    (by simp)
    (by
      rintro i stack _ hi ⟨h1, h2, h3, h4⟩
      have htk : (start.take (i + 1)).count true = (start.take i).count true + (if at' start i then 1 else 0) := by
        rw [at_lt (by omega), List.take_succ_eq_append_getElem (by omega), List.count_append]
        cases start[i] <;> rfl
      simp only [Option.bind_eq_bind]
      rw [rd_at (by omega), Option.bind_some]
      cases hb : at' start i with
      | false =>
        simp only [Bool.false_eq_true, if_false]
        refine ⟨stack, rfl, h1, by omega, ?_, by rw [htk, hb]; simpa using h4⟩
        intro x
        rw [h3]
        constructor
        · rintro ⟨g1, g2⟩; exact ⟨by omega, g2⟩
        · rintro ⟨g1, g2⟩
          refine ⟨?_, g2⟩
          by_contra hx
          have : x = i := by omega
          subst this
          rw [hb] at g2; cases g2
      | true =>
        simp only [if_true]
        unfold Scc.pushCap
        rw [if_pos (by omega)]
        refine ⟨_, rfl, ?_, by simp only [List.length_cons]; omega, ?_, ?_⟩
        · exact List.nodup_cons.2 ⟨fun h => by have := ((h3 i).1 h).1; omega, h1⟩
        · intro x
          simp only [List.mem_cons]
          rw [h3]
          constructor
          · rintro (rfl | ⟨g1, g2⟩)
            · exact ⟨by omega, hb⟩
            · exact ⟨by omega, g2⟩
          · rintro ⟨g1, g2⟩
            by_cases hx : x = i
            · exact Or.inl hx
            · exact Or.inr ⟨by omega, g2⟩
        · rw [htk, hb]
          simp only [List.length_cons, if_true]
          omega)
  have hst : ∀ x, at' start x = true → x < f.nodeCount := fun x hx => by
    have := at_eq_true_lt hx
    omega
  refine ⟨⟨start, 0, stack, []⟩, ?_, ⟨⟨hl, h1, ?_, ?_, ?_, fun x h => h, ?_, fun U _ h => h⟩, ?_, by simp, ⟨[], by simp⟩⟩⟩
  · unfold growStart
    simp only [Option.bind_eq_bind] at e ⊢
    rw [e, Option.bind_some]
  · intro x hx
    exact ((h3 x).1 hx).2
  · intro a x y _ h; exact h.elim
  · intro a x y _ h; exact h.elim
  · simp only [Nat.zero_add]
    rw [h4, List.take_of_length_le (by omega)]
  · intro a x y hA hx hxs _
    exact absurd ((h3 x).2 ⟨hst x hx, hx⟩) hxs

theorem nextPierce_spec {n : Nat} {a b : List Bool} (ha : a.length = n) (hb : b.length = n) : ∀ (l : List Nat),
    (∀ y ∈ l, y < n) → nextPierce a b l = some none ∨
      ∃ y rest, nextPierce a b l = some (some (y, rest)) ∧ y < n ∧ at' a y = false ∧ at' b y = false ∧
        rest.length ≤ l.length ∧ ∀ z ∈ rest, z < n
  | [], _ => Or.inl rfl
  | y :: l, h => by
    have hy := h y List.mem_cons_self
    have hl := fun z hz => h z (List.mem_cons_of_mem _ hz)
    have ih := nextPierce_spec ha hb l hl
    have ih' : nextPierce a b l = some none ∨
      ∃ y' rest, nextPierce a b l = some (some (y', rest)) ∧ y' < n ∧ at' a y' = false ∧ at' b y' = false ∧
        rest.length ≤ (y :: l).length ∧ ∀ z ∈ rest, z < n := by
      rcases ih with h | ⟨y', rest, g1, g2, g3, g4, g5, g6⟩
      · exact Or.inl h
      · exact Or.inr ⟨y', rest, g1, g2, g3, g4, by simp only [List.length_cons]; omega, g6⟩
    unfold nextPierce
    simp only [Option.bind_eq_bind]
    rw [rd_at (by omega), Option.bind_some]
    cases hya : at' a y with
    | true => simpa using ih'
    | false =>
      simp only [Bool.false_eq_true, if_false]
      rw [rd_at (by omega), Option.bind_some]
      cases hyb : at' b y with
      | true => simpa using ih'
      | false =>
        right
        simp only [Bool.false_eq_true, if_false]
        exact ⟨y, l, rfl, hy, hya, hyb, by simp, hl⟩

/-- One side of the balanced cut between two enlargements. -/
structure SideInv (f : GraphFragment) (us : Nat → Bool) (ends : List Bool) (s : GrowState) : Prop where
  inv : ∃ st P, GrowInv f us st P s
  stk : s.stack = []
  ends : ∀ x, at' ends x = true → at' s.reach x = true

theorem SideInv.rl {f : GraphFragment} {us : Nat → Bool} {ends : List Bool} {s : GrowState}
    (h : SideInv f us ends s) : s.reach.length = f.nodeCount := by
  obtain ⟨st, P, G⟩ := h.inv
  exact G.ri.rl

theorem SideInv.cnt {f : GraphFragment} {us : Nat → Bool} {ends : List Bool} {s : GrowState}
    (h : SideInv f us ends s) : s.count = s.reach.count true := by
  obtain ⟨st, P, G⟩ := h.inv
  have := G.ri.cnt
  rw [h.stk] at this
  simpa using this

theorem SideInv.cl {f : GraphFragment} {us : Nat → Bool} {ends : List Bool} {s : GrowState}
    (h : SideInv f us ends s) : ClosedU f us fun x => at' s.reach x = true := by
  obtain ⟨st, P, G⟩ := h.inv
  have h1 := G.ri
  have h2 := G.cov
  rw [h.stk] at h1 h2
  exact (reachInv_done h1 h2).cl

theorem SideInv.pn {f : GraphFragment} {us : Nat → Bool} {ends : List Bool} {s : GrowState}
    (h : SideInv f us ends s) : ∀ y ∈ s.pierce, y < f.nodeCount := by
  obtain ⟨st, P, G⟩ := h.inv
  exact G.pn

/-- Adding a piercing node `y` that is in `U`, where `U` is closed. -/
theorem pierce_spec {f : GraphFragment} (o : FragmentOk f) {us : Nat → Bool} {isSat : Nat → Option Bool}
    (hus : ∀ a, a < f.arcCount → isSat a = some (us a)) {ends : List Bool} {s : GrowState} (h : SideInv f us ends s)
    {y : Nat} (hy : y < f.nodeCount) (hyr : at' s.reach y = false) {rest : List Nat} (hr1 : rest.length ≤ s.pierce.length)
    (hr2 : ∀ z ∈ rest, z < f.nodeCount) {U : Nat → Prop} (hU : ClosedU f us U)
    (hUs : ∀ x, at' s.reach x = true → U x) (hUy : U y) :
    ∃ s', (do
        let reach ← wr s.reach y true
        let stack ← Scc.pushCap f.nodeCount s.stack y
        growLoop f isSat (f.nodeCount + 1) ⟨reach, s.count, stack, rest⟩) = some s' ∧
      SideInv f us ends s' ∧ s.count < s'.count ∧ (∀ x, at' s'.reach x = true → U x) ∧
      ∀ x, at' s.reach x = true → at' s'.reach x = true := by
  have hrl := h.rl
  have hct := h.cnt
  obtain ⟨st, P, G⟩ := h.inv
  have hstk := h.stk
  have hat : ∀ z, at' (s.reach.set y true) z = true ↔ z = y ∨ at' s.reach z = true := by
    intro z
    rw [at_set (by omega)]
    by_cases h : z = y
    · simp [h]
    · simp [h]
  have hcs := count_true_set (l := s.reach) (a := y) (by omega) hyr
  simp only [Option.bind_eq_bind]
  rw [wr_at (by omega), Option.bind_some, hstk]
  unfold Scc.pushCap
  rw [if_pos (by simp; omega), Option.bind_some]
  obtain ⟨L, hL1, hL2, hL3⟩ := G.pl
  have G1 : GrowInv f us (fun x => x = y ∨ at' s.reach x = true) P ⟨s.reach.set y true, s.count, [y], rest⟩ := by
    refine ⟨⟨by simpa using hrl, by simp, ?_, ?_, ?_, ?_, ?_, ?_⟩, ?_, hr2, ⟨L, hL1, hL2, by simp only; omega⟩⟩
    · intro x hx
      exact (hat x).2 (Or.inl (List.mem_singleton.1 hx))
    · intro a u v hA hp hu
      exact (hat v).2 (Or.inr (G.ri.cl a u v hA hp hu))
    · intro a u v hA hp
      have := (G.ri.ps a u v hA hp).1
      refine ⟨(hat u).2 (Or.inr this), ?_⟩
      intro hu
      rw [List.mem_singleton.1 hu] at this
      rw [this] at hyr; cases hyr
    · intro x hx
      exact (hat x).2 hx
    · simp only [List.length_singleton]
      omega
    · intro U' _ h' x hx
      exact h' x ((hat x).1 hx)
    · intro a u v hA hu hus' _
      simp only at hu hus'
      rcases (hat u).1 hu with rfl | hu
      · simp at hus'
      · exact G.cov a u v hA hu (by rw [hstk]; simp) id
  obtain ⟨s', P', e, G', hst'⟩ := growLoop_spec o hus (f.nodeCount + 1) P _ G1 (by simp only; omega)
  have hsub : ∀ x, at' s.reach x = true → at' s'.reach x = true := fun x hx => G'.ri.sub x (Or.inr hx)
  refine ⟨s', e, ⟨⟨_, P', G'⟩, hst', fun x hx => hsub x (h.ends x hx)⟩, ?_, ?_, hsub⟩
  · have h1 := G'.ri.cnt
    rw [hst'] at h1
    simp only [List.length_nil, Nat.add_zero] at h1
    have h2 := count_true_mono (a := s.reach.set y true) (b := s'.reach) (by
      have := G'.ri.rl
      simp only [List.length_set]
      omega) (fun x hx => G'.ri.sub x ((hat x).1 hx))
    omega
  · exact G'.ri.up U hU (by
      rintro x (rfl | hx)
      · exact hUy
      · exact hUs x hx)

/-- What is needed of the two kinds of arcs: `us` for the source side, `vs` for the target side. -/
structure Dual (f : GraphFragment) (us vs : Nat → Bool) : Prop where
  one : ∀ R : Nat → Prop, ClosedU f vs R → ClosedU f us fun x => ¬ R x
  two : ∀ R : Nat → Prop, ClosedU f us R → ClosedU f vs fun x => ¬ R x

theorem balancedLoop_spec {f : GraphFragment} (o : FragmentOk f) {sat src tgt : List Bool} {v : Nat}
    {us vs : Nat → Bool} (hus : ∀ a, a < f.arcCount → satOut sat a = some (us a))
    (hvs : ∀ a, a < f.arcCount → satIn f sat a = some (vs a)) (D : Dual f us vs) : ∀ (fuel : Nat) (s t : GrowState),
    SideInv f us src s → SideInv f vs tgt t → (∀ x, at' s.reach x = true → at' t.reach x = true → False) →
    f.nodeCount < fuel + s.count + t.count →
    ∃ c s' t', balancedLoop f sat v fuel s t = some c ∧ SideInv f us src s' ∧ SideInv f vs tgt t' ∧
      (∀ x, at' s'.reach x = true → at' t'.reach x = true → False) ∧
      (∀ x, at' s.reach x = true → at' s'.reach x = true) ∧ (∀ x, at' t.reach x = true → at' t'.reach x = true) ∧
      ((s'.count ≤ t'.count ∧ c = ⟨s'.count, v, s'.reach⟩) ∨ (t'.count < s'.count ∧ c = ⟨t'.count, v, t'.reach⟩))
  | 0, s, t, hs, ht, hd, hf => by
    have h1 := hs.cnt
    have h2 := ht.cnt
    have h3 := hs.rl
    have h4 := ht.rl
    have := count_true_disjoint (a := s.reach) (b := t.reach) (by omega) hd
    omega
  | fuel + 1, s, t, hs, ht, hd, hf => by
    have h3 := hs.rl
    have h4 := ht.rl
    unfold balancedLoop
    by_cases hct : s.count ≤ t.count
    · rw [if_pos hct]
      simp only [Option.bind_eq_bind]
      rcases nextPierce_spec h3 h4 s.pierce hs.pn with e | ⟨y, rest, e, hy, hys, hyt, hr1, hr2⟩
      · rw [e, Option.bind_some]
        exact ⟨_, s, t, rfl, hs, ht, hd, fun x h => h, fun x h => h, Or.inl ⟨hct, rfl⟩⟩
      · rw [e, Option.bind_some]
        simp only
        obtain ⟨s1, e1, hs1, hc1, hU, hsub⟩ := pierce_spec o hus hs hy hys hr1 hr2
          (D.one (fun x => at' t.reach x = true) ht.cl) (fun x hx h => hd x hx h) (by rw [hyt]; simp)
        have e2 : ∀ k : GrowState → Option CutSide, ((wr s.reach y true).bind fun reach =>
            (Scc.pushCap f.nodeCount s.stack y).bind fun stack =>
              (growLoop f (satOut sat) (f.nodeCount + 1) ⟨reach, s.count, stack, rest⟩).bind k) = k s1 := by
          intro k
          have := congrArg (fun o => o.bind k) e1
          simp only [Option.bind_eq_bind, Option.bind_assoc, Option.bind_some] at this
          exact this
        rw [e2]
        obtain ⟨c, s', t', g1, g2, g3, g4, g5, g6, g7⟩ := balancedLoop_spec o hus hvs D fuel s1 t hs1 ht hU (by omega)
        exact ⟨c, s', t', g1, g2, g3, g4, fun x h => g5 x (hsub x h), g6, g7⟩
    · rw [if_neg hct]
      simp only [Option.bind_eq_bind]
      rcases nextPierce_spec h3 h4 t.pierce ht.pn with e | ⟨y, rest, e, hy, hys, hyt, hr1, hr2⟩
      · rw [e, Option.bind_some]
        exact ⟨_, s, t, rfl, hs, ht, hd, fun x h => h, fun x h => h, Or.inr ⟨by omega, rfl⟩⟩
      · rw [e, Option.bind_some]
        simp only
        obtain ⟨t1, e1, ht1, hc1, hU, hsub⟩ := pierce_spec o hvs ht hy hyt hr1 hr2
          (D.two (fun x => at' s.reach x = true) hs.cl) (fun x hx h => hd x h hx) (by rw [hys]; simp)
        have e2 : ∀ k : GrowState → Option CutSide, ((wr t.reach y true).bind fun reach =>
            (Scc.pushCap f.nodeCount t.stack y).bind fun stack =>
              (growLoop f (satIn f sat) (f.nodeCount + 1) ⟨reach, t.count, stack, rest⟩).bind k) = k t1 := by
          intro k
          have := congrArg (fun o => o.bind k) e1
          simp only [Option.bind_eq_bind, Option.bind_assoc, Option.bind_some] at this
          exact this
        rw [e2]
        obtain ⟨c, s', t', g1, g2, g3, g4, g5, g6, g7⟩ := balancedLoop_spec o hus hvs D fuel s t1 hs ht1
          (fun x h h' => hU x h' h) (by omega)
        exact ⟨c, s', t', g1, g2, g3, g4, g5, fun x h => g6 x (hsub x h), g7⟩

end RK
