import Verif.Proof.Advance
/-! # The searches for the sides of a cut (nested_dissection.cpp:214-406) -/
namespace RK
open Spec Nd BitVector

theorem count_true_set {l : List Bool} {a : Nat} (hl : a < l.length) (ha : at' l a = false) :
    (l.set a true).count true = l.count true + 1 := by
  rw [at_lt hl] at ha
  rw [List.count_set hl]
  simp [ha]

theorem count_false_true (l : List Bool) : l.count false + l.count true = l.length := by
  induction l with
  | nil => rfl
  | cons b l ih => cases b <;> simp <;> omega

theorem atc_zero (b : Bool) (l : List Bool) : at' (b :: l) 0 = b := by
  rw [at_lt (by simp)]; rfl

theorem atc_succ (b : Bool) (l : List Bool) (x : Nat) : at' (b :: l) (x + 1) = at' l x := by
  by_cases h : x < l.length
  · rw [at_lt (by simpa using h), at_lt h]; rfl
  · rw [at_ge (by simpa using h), at_ge (by omega)]

theorem count_true_mono : ∀ {a b : List Bool}, a.length = b.length → (∀ x, at' a x = true → at' b x = true) →
    a.count true ≤ b.count true
  | [], [], _, _ => Nat.le_refl _
  | [], _ :: _, h, _ => by simp at h
  | _ :: _, [], h, _ => by simp at h
  | p :: a, q :: b, h, H => by
    have h0 := H 0
    rw [atc_zero, atc_zero] at h0
    have := count_true_mono (a := a) (b := b) (by simpa using h) (fun x hx => by
      have := H (x + 1)
      rw [atc_succ, atc_succ] at this
      exact this hx)
    cases p with
    | false => cases q <;> simp <;> omega
    | true => rw [h0 rfl]; simpa using this

theorem count_true_disjoint : ∀ {a b : List Bool}, a.length = b.length →
    (∀ x, at' a x = true → at' b x = true → False) → a.count true + b.count true ≤ a.length
  | [], [], _, _ => Nat.le_refl _
  | [], _ :: _, h, _ => by simp at h
  | _ :: _, [], h, _ => by simp at h
  | p :: a, q :: b, h, H => by
    have h0 := H 0
    rw [atc_zero, atc_zero] at h0
    have := count_true_disjoint (a := a) (b := b) (by simpa using h) (fun x hx hy => by
      have := H (x + 1)
      rw [atc_succ, atc_succ] at this
      exact this hx hy)
    cases p <;> cases q <;> simp at h0 ⊢ <;> omega

/-- `U` is closed under the arcs that `us` does not mark. -/
def ClosedU (f : GraphFragment) (us : Nat → Bool) (U : Nat → Prop) : Prop :=
  ∀ a x y, FragArc f a x y → U x → us a = false → U y

/-- A search over the arcs that `us` does not mark: `P` are the arcs that were processed, `k` is the number
of nodes that were taken from the stack. -/
structure ReachInv (f : GraphFragment) (us : Nat → Bool) (st : Nat → Prop) (P : Nat → Prop) (k : Nat)
    (reach : List Bool) (stack : List Nat) : Prop where
  rl : reach.length = f.nodeCount
  nd : stack.Nodup
  mem : ∀ x ∈ stack, at' reach x = true
  cl : ∀ a x y, FragArc f a x y → P a → us a = false → at' reach y = true
  ps : ∀ a x y, FragArc f a x y → P a → at' reach x = true ∧ x ∉ stack
  sub : ∀ x, st x → at' reach x = true
  cnt : k + stack.length = reach.count true
  up : ∀ U, ClosedU f us U → (∀ x, st x → U x) → ∀ x, at' reach x = true → U x

theorem reachInv_skip {f : GraphFragment} {us : Nat → Bool} {st P : Nat → Prop} {k : Nat} {reach : List Bool}
    {stack : List Nat} (I : ReachInv f us st P k reach stack) {a x y : Nat} (hA : FragArc f a x y)
    (hx : at' reach x = true) (hxs : x ∉ stack) (h : us a = true ∨ at' reach y = true) {P' : Nat → Prop}
    (hP' : ∀ c, P' c ↔ P c ∨ c = a) : ReachInv f us st P' k reach stack where
  rl := I.rl
  nd := I.nd
  mem := I.mem
  cl := by
    intro c u v hC hc hu
    rcases (hP' c).1 hc with hc | rfl
    · exact I.cl c u v hC hc hu
    · obtain ⟨rfl, rfl⟩ := fragArc_inj hC hA
      rcases h with h | h
      · rw [hu] at h; cases h
      · exact h
  ps := by
    intro c u v hC hc
    rcases (hP' c).1 hc with hc | rfl
    · exact I.ps c u v hC hc
    · obtain ⟨rfl, rfl⟩ := fragArc_inj hC hA
      exact ⟨hx, hxs⟩
  sub := I.sub
  cnt := I.cnt
  up := I.up

theorem reachInv_push {f : GraphFragment} (o : FragmentOk f) {us : Nat → Bool} {st P : Nat → Prop} {k : Nat}
    {reach : List Bool} {stack : List Nat} (I : ReachInv f us st P k reach stack) {a x y : Nat} (hA : FragArc f a x y)
    (hx : at' reach x = true) (hxs : x ∉ stack) (hu : us a = false) (hy : at' reach y = false) {P' : Nat → Prop}
    (hP' : ∀ c, P' c ↔ P c ∨ c = a) :
    ReachInv f us st P' k (reach.set y true) (y :: stack) ∧ stack.length < f.nodeCount ∧ x ∉ y :: stack ∧
      at' (reach.set y true) x = true := by
  have hyl : y < f.nodeCount := (fragArc_lt o hA).2
  have hrl := I.rl
  have hys : y ∉ stack := fun h => by rw [I.mem y h] at hy; cases hy
  have hxy : x ≠ y := by rintro rfl; rw [hx] at hy; cases hy
  have hat : ∀ z, at' (reach.set y true) z = true ↔ z = y ∨ at' reach z = true := by
    intro z
    rw [at_set (by omega)]
    by_cases h : z = y
    · simp [h]
    · simp [h]
  have hnd : (y :: stack).Nodup := List.nodup_cons.2 ⟨hys, I.nd⟩
  have hxs' : x ∉ y :: stack := by
    intro h
    rcases List.mem_cons.1 h with h | h
    · exact hxy h
    · exact hxs h
  have hlen := nodup_bounded_length (l := y :: stack) (n := f.nodeCount) hnd (by
    intro z hz
    rcases List.mem_cons.1 hz with rfl | hz
    · exact hyl
    · have := at_eq_true_lt (I.mem z hz)
      omega)
  refine ⟨⟨by simpa using I.rl, hnd, ?_, ?_, ?_, ?_, ?_, ?_⟩, by simpa [Nat.lt_iff_add_one_le] using hlen, hxs',
    (hat x).2 (Or.inr hx)⟩
  · intro z hz
    rcases List.mem_cons.1 hz with rfl | hz
    · exact (hat _).2 (Or.inl rfl)
    · exact (hat z).2 (Or.inr (I.mem z hz))
  · intro c u v hC hc huc
    rcases (hP' c).1 hc with hc | rfl
    · exact (hat v).2 (Or.inr (I.cl c u v hC hc huc))
    · obtain ⟨rfl, rfl⟩ := fragArc_inj hC hA
      exact (hat _).2 (Or.inl rfl)
  · intro c u v hC hc
    rcases (hP' c).1 hc with hc | rfl
    · obtain ⟨h1, h2⟩ := I.ps c u v hC hc
      refine ⟨(hat u).2 (Or.inr h1), ?_⟩
      intro h
      rcases List.mem_cons.1 h with rfl | h
      · rw [h1] at hy; cases hy
      · exact h2 h
    · obtain ⟨rfl, rfl⟩ := fragArc_inj hC hA
      exact ⟨(hat _).2 (Or.inr hx), hxs'⟩
  · intro z hz
    exact (hat z).2 (Or.inr (I.sub z hz))
  · have := count_true_set (l := reach) (a := y) (by omega) hy
    have := I.cnt
    simp only [List.length_cons]
    omega
  · intro U hU hst z hz
    rcases (hat z).1 hz with rfl | hz
    · exact hU a x _ hA (I.up U hU hst x hx) hu
    · exact I.up U hU hst z hz

/-- All arcs of the nodes that were taken from the stack have been processed, except for those of `cur`. -/
def Covered (f : GraphFragment) (P : Nat → Prop) (reach : List Bool) (stack : List Nat) (cur : Nat → Prop) : Prop :=
  ∀ a x y, FragArc f a x y → at' reach x = true → x ∉ stack → ¬ cur x → P a

/-- The arcs of a popped node before `j`. -/
theorem reachInv_pop {f : GraphFragment} {us : Nat → Bool} {st P : Nat → Prop} {k : Nat} {reach : List Bool}
    {x : Nat} {rest : List Nat} (I : ReachInv f us st P k reach (x :: rest)) :
    ReachInv f us st P (k + 1) reach rest ∧ at' reach x = true ∧ x ∉ rest ∧ ∀ a y, FragArc f a x y → ¬ P a := by
  have hnd := List.nodup_cons.1 I.nd
  refine ⟨⟨I.rl, hnd.2, fun z hz => I.mem z (List.mem_cons_of_mem _ hz), I.cl, ?_, I.sub, ?_, I.up⟩,
    I.mem x List.mem_cons_self, hnd.1, ?_⟩
  · intro a u v hA hp
    obtain ⟨h1, h2⟩ := I.ps a u v hA hp
    exact ⟨h1, fun h => h2 (List.mem_cons_of_mem _ h)⟩
  · have := I.cnt
    simp only [List.length_cons] at this
    omega
  · intro a y hA hp
    exact (I.ps a x y hA hp).2 List.mem_cons_self

/-- The result of a search. -/
structure ReachDone (f : GraphFragment) (us : Nat → Bool) (st : Nat → Prop) (reach : List Bool) : Prop where
  rl : reach.length = f.nodeCount
  sub : ∀ x, st x → at' reach x = true
  cl : ClosedU f us fun x => at' reach x = true
  up : ∀ U, ClosedU f us U → (∀ x, st x → U x) → ∀ x, at' reach x = true → U x

theorem reachInv_done {f : GraphFragment} {us : Nat → Bool} {st P : Nat → Prop} {k : Nat} {reach : List Bool}
    (I : ReachInv f us st P k reach []) (C : Covered f P reach [] fun _ => False) : ReachDone f us st reach where
  rl := I.rl
  sub := I.sub
  cl := by
    intro a x y hA hx hu
    exact I.cl a x y hA (C a x y hA hx (by simp) id) hu
  up := I.up

/-! ### Source and target cut -/

theorem sideNode_spec {f : GraphFragment} (o : FragmentOk f) {us : Nat → Bool} {isSat : Nat → Option Bool}
    (hus : ∀ a, a < f.arcCount → isSat a = some (us a)) {st P : Nat → Prop} {k x b e : Nat} {s : SideState}
    {rest : List Nat} (hs : s.stack = x :: rest) (I : ReachInv f us st P k s.side s.stack)
    (C : Covered f P s.side s.stack fun _ => False)
    (hc : s.count = s.side.count true) (hbe : b ≤ e) (hiff : ∀ a : Nat, f.tail[a]? = some x ↔ b ≤ a ∧ a < e) :
    ∃ s' P', forRange b e { s with stack := rest } (sideArc f isSat) = some s' ∧
      ReachInv f us st P' (k + 1) s'.side s'.stack ∧ Covered f P' s'.side s'.stack (fun _ => False) ∧
      s'.count = s'.side.count true := by
  rw [hs] at I C
  obtain ⟨I1, hx, hxr, hPx⟩ := reachInv_pop I
  obtain ⟨s', e', I2, C2, hc2, hx2, hxs2⟩ := forRange_inv (lo := b) (hi := e)
    (s := ({ s with stack := rest } : SideState)) (f := sideArc f isSat)
    (fun j s' => ReachInv f us st (fun a => P a ∨ (b ≤ a ∧ a < j)) (k + 1) s'.side s'.stack ∧
      Covered f P s'.side s'.stack (fun z => z = x) ∧ s'.count = s'.side.count true ∧ at' s'.side x = true ∧
      x ∉ s'.stack) hbe
    (by
      refine ⟨?_, ?_, hc, hx, hxr⟩
      · have : (fun a => P a ∨ (b ≤ a ∧ a < b)) = P := by
          funext a; apply propext; constructor
          · rintro (h | h)
            · exact h
            · omega
          · exact Or.inl
        rw [this]; exact I1
      · intro a u v hA hu hur hcur
        exact C a u v hA hu (fun h => by
          rcases List.mem_cons.1 h with h | h
          · exact hcur h
          · exact hur h) id)
    (by
      rintro j s1 h1 h2 ⟨I1, C1, hc1, hx1, hxs1⟩
      have hj : f.tail[j]? = some x := (hiff j).2 ⟨h1, h2⟩
      have hjm : j < f.arcCount := rd_some_lt (v := f.tail) hj
      obtain ⟨y, hy⟩ := rd_isSome (v := f.head) (i := j) (by rw [o.head_len]; exact hjm)
      have hA : FragArc f j x y := ⟨hj, hy⟩
      have hyl : y < f.nodeCount := (fragArc_lt o hA).2
      have hP' : ∀ c, (P c ∨ (b ≤ c ∧ c < j + 1)) ↔ (P c ∨ (b ≤ c ∧ c < j)) ∨ c = j := by
        intro c
        rw [or_assoc]
        refine or_congr Iff.rfl ?_
        omega
      have hrl := I1.rl
      unfold sideArc
      simp only [Option.bind_eq_bind]
      rw [hus j hjm, Option.bind_some]
      cases hu : us j with
      | true =>
        simp only [Bool.not_true, Bool.false_eq_true, if_false]
        exact ⟨s1, rfl, reachInv_skip I1 hA hx1 hxs1 (Or.inl hu) hP', C1, hc1, hx1, hxs1⟩
      | false =>
        simp only [Bool.not_false, if_true]
        rw [hy, Option.bind_some, rd_at (by omega), Option.bind_some]
        cases hr : at' s1.side y with
        | true =>
          simp only [Bool.not_true, Bool.false_eq_true, if_false]
          exact ⟨s1, rfl, reachInv_skip I1 hA hx1 hxs1 (Or.inr hr) hP', C1, hc1, hx1, hxs1⟩
        | false =>
          simp only [Bool.not_false, if_true]
          obtain ⟨I2, hlt, hxs2, hx2⟩ := reachInv_push o I1 hA hx1 hxs1 hu hr hP'
          unfold Scc.pushCap
          rw [if_pos hlt, Option.bind_some, wr_at (by omega), Option.bind_some]
          refine ⟨_, rfl, I2, ?_, ?_, hx2, hxs2⟩
          · intro a u v hB hu' hus' hcur
            simp only at hu' hus'
            rw [at_set (by omega)] at hu'
            split at hu'
            · rename_i h
              exact absurd (h ▸ List.mem_cons_self) hus'
            · exact C1 a u v hB hu' (fun h => hus' (List.mem_cons_of_mem _ h)) hcur
          · simp only
            rw [count_true_set (by omega) hr, hc1])
  refine ⟨s', _, e', I2, ?_, hc2⟩
  intro a u v hA hu hus' _
  by_cases h : u = x
  · subst h
    exact Or.inr ((hiff a).1 hA.1)
  · exact Or.inl (C2 a u v hA hu hus' h)

theorem sideLoop_spec {f : GraphFragment} (o : FragmentOk f) {us : Nat → Bool} {isSat : Nat → Option Bool}
    (hus : ∀ a, a < f.arcCount → isSat a = some (us a)) {st : Nat → Prop} : ∀ (fuel : Nat) (P : Nat → Prop) (k : Nat)
    (s : SideState), ReachInv f us st P k s.side s.stack → Covered f P s.side s.stack (fun _ => False) →
    s.count = s.side.count true → f.nodeCount < fuel + k →
    ∃ s', sideLoop f isSat fuel s = some s' ∧ ReachDone f us st s'.side ∧ s'.count = s'.side.count true
  | 0, P, k, s, I, _, _, h => by
    have := I.cnt
    have := I.rl
    have := count_false_true s.side
    omega
  | fuel + 1, P, k, s, I, C, hc, h => by
    unfold sideLoop
    cases hs : s.stack with
    | nil =>
      simp only
      rw [hs] at I C
      exact ⟨s, rfl, reachInv_done I C, hc⟩
    | cons x rest =>
      simp only [Option.bind_eq_bind]
      have hxl : x < f.nodeCount := by
        have := at_eq_true_lt (I.mem x (by rw [hs]; exact List.mem_cons_self))
        have := I.rl
        omega
      obtain ⟨b, e, hb, he, hbe, hiff⟩ := o.first_out x hxl
      have hb' : rd f.firstOut x = some b := hb
      have he' : rd f.firstOut (x + 1) = some e := he
      rw [hb', he']
      simp only [Option.bind_some]
      obtain ⟨s1, P1, e1, I1, C1, hc1⟩ := sideNode_spec o hus hs I C hc hbe hiff
      rw [e1, Option.bind_some]
      exact sideLoop_spec o hus fuel P1 (k + 1) s1 I1 C1 hc1 (by omega)

theorem sideStart_spec {f : GraphFragment} {start : List Bool} (hl : start.length = f.nodeCount) (us : Nat → Bool) :
    ∃ s, sideStart f start = some s ∧ ReachInv f us (fun x => at' start x = true) (fun _ => False) 0 s.side s.stack ∧
      Covered f (fun _ => False) s.side s.stack (fun _ => False) ∧ s.count = s.side.count true := by
  obtain ⟨s, e, h1, h2, h3, h4, h5, h6⟩ := forRange_inv (lo := 0) (hi := f.nodeCount)
    (s := (⟨List.replicate f.nodeCount false, 0, []⟩ : SideState))
    (f := fun s x => do
      let b ← rd start x
      if b then do
        let stack ← Scc.pushCap f.nodeCount s.stack x
        let side ← wr s.side x true
        some ⟨side, s.count + 1, stack⟩
      else some s)
    (fun i s => s.side.length = f.nodeCount ∧ s.stack.Nodup ∧ s.stack.length ≤ i ∧
      (∀ x, x ∈ s.stack ↔ x < i ∧ at' start x = true) ∧ (∀ x, at' s.side x = true ↔ x < i ∧ at' start x = true) ∧
      s.count = s.stack.length ∧ s.count = s.side.count true) (Nat.zero_le _)
    (by
      refine ⟨by simp, by simp, by simp, by simp, ?_, rfl, ?_⟩
      · intro x
        simp [at_replicate]
      · simp [List.count_replicate])
    (by
      rintro i s _ hi ⟨h1, h2, h3, h4, h5, h6, h7⟩
      simp only [Option.bind_eq_bind]
      rw [rd_at (by omega), Option.bind_some]
      cases hb : at' start i with
      | false =>
        simp only [Bool.false_eq_true, if_false]
        refine ⟨s, rfl, h1, h2, by omega, ?_, ?_, h6, h7⟩
        · intro x
          rw [h4]
          constructor
          · rintro ⟨g1, g2⟩; exact ⟨by omega, g2⟩
          · rintro ⟨g1, g2⟩
            refine ⟨?_, g2⟩
            by_contra hx
            have : x = i := by omega
            subst this
            rw [hb] at g2; cases g2
        · intro x
          rw [h5]
          constructor
          · rintro ⟨g1, g2⟩; exact ⟨by omega, g2⟩
          · rintro ⟨g1, g2⟩
            refine ⟨?_, g2⟩
            by_contra hx
            have : x = i := by omega
            subst this
            rw [hb] at g2; cases g2
      | true =>
        simp only [if_true]
        unfold Scc.pushCap
        rw [if_pos (by omega), Option.bind_some, wr_at (by omega), Option.bind_some]
        have hni : at' s.side i = false := by
          cases h : at' s.side i with
          | false => rfl
          | true => have := ((h5 i).1 h).1; omega
        refine ⟨_, rfl, by simpa using h1, ?_, by simp only [List.length_cons]; omega, ?_, ?_, ?_, ?_⟩
        · exact List.nodup_cons.2 ⟨fun h => by have := ((h4 i).1 h).1; omega, h2⟩
        · intro x
          simp only [List.mem_cons]
          rw [h4]
          constructor
          · rintro (rfl | ⟨g1, g2⟩)
            · exact ⟨by omega, hb⟩
            · exact ⟨by omega, g2⟩
          · rintro ⟨g1, g2⟩
            by_cases hx : x = i
            · exact Or.inl hx
            · exact Or.inr ⟨by omega, g2⟩
        · intro x
          simp only
          rw [at_set (by omega)]
          by_cases hx : x = i
          · subst hx
            simp [hb]
          · rw [if_neg hx, h5]
            constructor
            · rintro ⟨g1, g2⟩; exact ⟨by omega, g2⟩
            · rintro ⟨g1, g2⟩; exact ⟨by omega, g2⟩
        · simp only [List.length_cons]; omega
        · simp only
          rw [count_true_set (by omega) hni, h7])
  have hst : ∀ x, at' start x = true → x < f.nodeCount := fun x hx => by
    have := at_eq_true_lt hx
    omega
  refine ⟨s, e, ⟨h1, h2, ?_, ?_, ?_, ?_, ?_, ?_⟩, ?_, h6.2⟩
  · intro x hx
    exact (h5 x).2 ((h4 x).1 hx)
  · intro a x y _ h; exact h.elim
  · intro a x y _ h; exact h.elim
  · intro x hx
    exact (h5 x).2 ⟨hst x hx, hx⟩
  · have := h6.1; have := h6.2; omega
  · intro U _ hU x hx
    exact hU x ((h5 x).1 hx).2
  · intro a x y hA hx hxs _
    exact absurd ((h4 x).2 ((h5 x).1 hx)) hxs

end RK
