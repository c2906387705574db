import Verif.Proof.Dfs
/-! # One round of a blocking flow (nested_dissection.cpp:159-210, 408-415) -/
namespace RK
open Spec Nd BitVector

theorem dfsLoop_spec {f : GraphFragment} (o : FragmentOk f) (hm : f.arcCount < u32) {src tgt : List Bool}
    {Q : List Nat} {blocked0 : List Bool} {v0 : Nat} (F : Forward f tgt Q blocked0) (hnd : Q.Nodup)
    (hql : ∀ x ∈ Q, x < f.nodeCount) (hQn : Q.length < f.nodeCount)
    (E : Ends f src tgt) (hnt : ∀ x ∈ Q, at' tgt x = false) : ∀ (fuel : Nat) (s : DfsState),
    DfsInv f src tgt Q blocked0 v0 s → PathInv f src Q s.blocked s.pathNode s.pathArc s.cnt →
    dfsMeasure f s < fuel →
    ∃ s', dfsLoop f tgt fuel s = some s' ∧ DfsInv f src tgt Q blocked0 v0 s' ∧
      (∀ r a y, rd s.pathNode 0 = some r → FragArc f a r y → at' s'.blocked a = true) ∧
      ∀ a, at' s.blocked a = true → at' s'.blocked a = true
  | 0, s, _, _, h => absurd h (Nat.not_lt_zero _)
  | fuel + 1, s, I, P, h => by
    unfold dfsLoop
    simp only [Option.bind_eq_bind]
    rcases dfsStep_spec o hm F hnd hql hQn E hnt I P with ⟨e, _, h2⟩ | ⟨s1, e, I1, P1, h1, h2, h3⟩
    · rw [e, Option.bind_some]
      exact ⟨s, rfl, I, h2, fun a h => h⟩
    · rw [e, Option.bind_some]
      obtain ⟨s2, e2, I2, h4, h5⟩ := dfsLoop_spec o hm F hnd hql hQn E hnt fuel s1 I1 P1 (by omega)
      exact ⟨s2, e2, I2, fun r a y hr => h4 r a y (h2.trans hr), fun a h => h5 a (h3 a h)⟩

theorem dfsRoot_spec {f : GraphFragment} (o : FragmentOk f) (hm : f.arcCount < u32) {src tgt : List Bool}
    {Q : List Nat} {blocked0 : List Bool} {v0 : Nat} (F : Forward f tgt Q blocked0) (hnd : Q.Nodup)
    (hql : ∀ x ∈ Q, x < f.nodeCount) (hQn : Q.length < f.nodeCount)
    (E : Ends f src tgt) (hnt : ∀ x ∈ Q, at' tgt x = false) (hsQ : ∀ x, at' src x = true → x ∈ Q) {s : DfsState}
    (I : DfsInv f src tgt Q blocked0 v0 s) {r : Nat} (hr : r < f.nodeCount) :
    ∃ s', dfsRoot f src tgt s r = some s' ∧ DfsInv f src tgt Q blocked0 v0 s' ∧
      (at' src r = true → ∀ a y, FragArc f a r y → at' s'.blocked a = true) ∧
      ∀ a, at' s.blocked a = true → at' s'.blocked a = true := by
  have hsl := E.sl
  have h1 := I.pnl
  have h2 := I.pal
  unfold dfsRoot
  simp only [Option.bind_eq_bind]
  rw [rd_at (by omega), Option.bind_some]
  cases hs : at' src r with
  | false =>
    simp only [Bool.false_eq_true, if_false]
    exact ⟨s, rfl, I, fun h => (by cases h), fun a h => h⟩
  | true =>
    simp only [if_true]
    rw [wr_lt (by omega), Option.bind_some, wr_lt (by omega), Option.bind_some]
    have hr0 : rd (s.pathNode.set 0 r) 0 = some r := by rw [rd_set (by omega), if_pos rfl]
    have I1 : DfsInv f src tgt Q blocked0 v0
        { s with pathNode := s.pathNode.set 0 r, pathArc := s.pathArc.set 0 r, cnt := 0 } :=
      ⟨by simpa using I.pnl, by simpa using I.pal, I.sl, I.bl, I.mono, I.uns, I.anti, I.val, I.dead⟩
    obtain ⟨p, hp⟩ := List.getElem?_of_mem (hsQ r hs)
    have P1 : PathInv f src Q s.blocked (s.pathNode.set 0 r) (s.pathArc.set 0 r) 0 := by
      refine ⟨⟨r, hr0, hs⟩, fun i hi => absurd hi (Nat.not_lt_zero i), ?_⟩
      intro i hi
      have : i = 0 := by omega
      subst this
      exact ⟨p, r, hr0, hp, by omega⟩
    obtain ⟨s', e, I', h3, h4⟩ := dfsLoop_spec o hm F hnd hql hQn E hnt
      ((f.arcCount + 1) * (f.nodeCount + 1))
      { s with pathNode := s.pathNode.set 0 r, pathArc := s.pathArc.set 0 r, cnt := 0 } I1 P1
      (by
        unfold dfsMeasure
        simp only
        have h5 := List.count_le_length (a := false) (l := s.blocked)
        have h6 := I.bl
        have h7 : s.blocked.count false * (f.nodeCount + 1) ≤ f.arcCount * (f.nodeCount + 1) :=
          Nat.mul_le_mul_right _ (by omega)
        rw [Nat.add_mul]
        omega)
    exact ⟨s', e, I', fun _ a y hA => h3 r a y hr0 hA, h4⟩

/-- The invariant of a flow. -/
structure FlowInv (f : GraphFragment) (src tgt : List Bool) (w : Flow) : Prop where
  isrc : w.isSource = src
  itgt : w.isTarget = tgt
  sl : w.sat.length = f.arcCount
  anti : ∀ a b, rd f.backArc a = some b → at' w.sat a = true → at' w.sat b = true → False
  val : ∀ S : Nat → Bool, (∀ x, at' src x = true → S x = true) → (∀ x, at' tgt x = true → S x = false) →
    flowOut f w.sat S = w.intensity
  fin : w.finished = true → ∃ S : Nat → Prop, (∀ x, at' src x = true → S x) ∧ (∀ x, at' tgt x = true → ¬ S x) ∧
    ∀ a x y, FragArc f a x y → S x → at' w.sat a = false → S y

theorem flowInv_le {f : GraphFragment} {src tgt : List Bool} (o : FragmentOk f) (E : Ends f src tgt) {sat : List Bool}
    {v : Nat} (h : ∀ S : Nat → Bool, (∀ x, at' src x = true → S x = true) → (∀ x, at' tgt x = true → S x = false) →
      flowOut f sat S = v) : v ≤ f.arcCount := by
  have h1 := h (at' src) (fun x hx => hx) (by
    intro x hx
    cases hs : at' src x with
    | false => rfl
    | true => rw [E.disj x hs] at hx; cases hx)
  have h2 := flowOut_le o sat (at' src)
  have h3 := leavingSum_le (f := f) (at' src)
  omega

theorem augmentAll_spec {f : GraphFragment} (o : FragmentOk f) (hm : f.arcCount < u32) {src tgt : List Bool}
    (E : Ends f src tgt) (ht : ∃ x, at' tgt x = true) {w : Flow} (W : FlowInv f src tgt w) {blocked : List Bool}
    {Q : List Nat} (D : BfsDone f src tgt w.sat blocked true Q) :
    ∃ sat' blocked' k, augmentAll f src tgt w.sat blocked = some (sat', blocked', k) ∧ 0 < k ∧
      sat'.length = f.arcCount ∧
      (∀ a b, rd f.backArc a = some b → at' sat' a = true → at' sat' b = true → False) ∧
      ∀ S : Nat → Bool, (∀ x, at' src x = true → S x = true) → (∀ x, at' tgt x = true → S x = false) →
        flowOut f sat' S = ((w.intensity + k : Nat) : Int) := by
  have F : Forward f tgt Q blocked := by
    intro a x y p hA hp hb
    rcases D.pr a x y p hA hp with ⟨h, _⟩ | ⟨_, _, h⟩
    · rw [hb] at h; cases h
    · exact h
  have hQn : Q.length < f.nodeCount := by
    obtain ⟨t, ht⟩ := ht
    have htl := at_eq_true_lt ht
    have := E.tl
    have htQ : t ∉ Q := fun h => by rw [D.nt t h] at ht; cases ht
    have := nodup_bounded_length (l := t :: Q) (n := f.nodeCount) (List.nodup_cons.2 ⟨htQ, D.nd⟩) (by
      intro x hx
      rcases List.mem_cons.1 hx with rfl | hx
      · omega
      · exact D.lt x hx)
    simp only [List.length_cons] at this
    omega
  have I0 : DfsInv f src tgt Q blocked w.intensity
      ⟨List.replicate f.nodeCount 0, List.replicate f.nodeCount 0, 0, w.sat, blocked, 0⟩ := by
    refine ⟨by simp, by simp, W.sl, D.bl, fun a h => h, ?_, W.anti, ?_, ?_⟩
    · intro a x y hA hx hb
      obtain ⟨p, hp⟩ := List.getElem?_of_mem hx
      rcases D.pr a x y p hA hp with ⟨h, _⟩ | ⟨_, h, _⟩
      · simp only at hb
        rw [hb] at h; cases h
      · exact h
    · intro S h1 h2
      have := W.val S h1 h2
      simp only
      omega
    · intro _ a x y _ h1 h2
      simp only at h2
      rw [h1] at h2; cases h2
  obtain ⟨s, e, I, hroots⟩ := forRange_inv (lo := 0) (hi := f.nodeCount)
    (s := (⟨List.replicate f.nodeCount 0, List.replicate f.nodeCount 0, 0, w.sat, blocked, 0⟩ : DfsState))
    (f := dfsRoot f src tgt)
    (fun i s => DfsInv f src tgt Q blocked w.intensity s ∧
      ∀ r, r < i → at' src r = true → ∀ a y, FragArc f a r y → at' s.blocked a = true) (Nat.zero_le _)
    ⟨I0, fun r hr => absurd hr (Nat.not_lt_zero r)⟩
    (by
      rintro i s _ hi ⟨I, h⟩
      obtain ⟨s', e, I', h1, h2⟩ := dfsRoot_spec o hm F D.nd D.lt hQn E D.nt D.srcs I hi
      refine ⟨s', e, I', ?_⟩
      intro r hr hs a y hA
      by_cases hri : r = i
      · subst hri; exact h1 hs a y hA
      · exact h2 a (h r (by omega) hs a y hA))
  refine ⟨s.sat, s.blocked, s.paths, ?_, ?_, I.sl, I.anti, ?_⟩
  · unfold augmentAll
    simp only [Option.bind_eq_bind]
    rw [e, Option.bind_some]
  · by_contra hk
    have h0 : s.paths = 0 := by omega
    -- then all arcs of the nodes in the queue are blocked
    have hall : ∀ n, ∀ p, p < n → ∀ x, rd Q p = some x → ∀ a y, FragArc f a x y → at' s.blocked a = true := by
      intro n
      induction n with
      | zero => intro p hp; omega
      | succ n ih =>
        intro p hp x hx a y hA
        have hxQ : x ∈ Q := List.mem_of_getElem? hx
        rcases D.par x hxQ with hs | ⟨c, u, hC, hu, hcb⟩
        · exact hroots x (D.lt x hxQ) hs a y hA
        · obtain ⟨q, hq⟩ := List.getElem?_of_mem hu
          have hqp : q < p := by
            rcases F c u x q hC hq hcb with h | ⟨p', h, h'⟩
            · rw [D.nt x hxQ] at h; cases h
            · have := rd_nodup_inj D.nd hx h'
              omega
          have := ih q (by omega) u hq c x hC
          exact (I.dead h0 c u x hC hcb this).2 a y hA
    obtain ⟨a, x, y, hA, hx, hb, hty⟩ := D.rch.1 rfl
    obtain ⟨p, hp⟩ := List.getElem?_of_mem hx
    have := hall (p + 1) p (by omega) x hp a y hA
    have := (I.dead h0 a x y hA hb this).1
    rw [hty] at this; cases this
  · intro S h1 h2
    have := I.val S h1 h2
    push_cast
    exact this

theorem advance_spec {f : GraphFragment} (o : FragmentOk f) (hm : f.arcCount < u32) {src tgt : List Bool}
    (E : Ends f src tgt) (ht : ∃ x, at' tgt x = true) {w : Flow} (W : FlowInv f src tgt w) :
    ∃ w', advance f w = some w' ∧ FlowInv f src tgt w' ∧
      ((w'.finished = true ∧ w'.intensity = w.intensity ∧ w'.sat = w.sat) ∨
        (w.finished = false ∧ w'.finished = false ∧ w.intensity < w'.intensity)) := by
  unfold advance
  cases hf : w.finished with
  | true =>
    simp only [Bool.not_true, Bool.false_eq_true, if_false]
    exact ⟨_, rfl, ⟨W.isrc, W.itgt, W.sl, W.anti, W.val, fun _ => W.fin hf⟩, Or.inl ⟨rfl, rfl, rfl⟩⟩
  | false =>
    simp only [Bool.not_false, if_true, Option.bind_eq_bind]
    rw [W.isrc, W.itgt]
    obtain ⟨blocked, reach, Q, e, D⟩ := computeBlockingFlow_spec o E W.sl
    rw [e, Option.bind_some]
    cases reach with
    | false =>
      simp only [Bool.false_eq_true, if_false]
      refine ⟨_, rfl, ⟨rfl, rfl, W.sl, W.anti, W.val, fun _ => ⟨(· ∈ Q), D.srcs, ?_, ?_⟩⟩, Or.inl ⟨rfl, rfl, rfl⟩⟩
      · intro x hx h
        rw [D.nt x h] at hx; cases hx
      · intro a x y hA hx hs
        obtain ⟨p, hp⟩ := List.getElem?_of_mem hx
        simp only at hs
        rcases D.pr a x y p hA hp with ⟨_, h | h⟩ | ⟨h1, _, h | ⟨q, _, hq⟩⟩
        · rw [hs] at h; cases h
        · exact h
        · have := D.rch.2 ⟨a, x, y, hA, hx, h1, h⟩
          cases this
        · exact List.mem_of_getElem? hq
    | true =>
      simp only [if_true]
      obtain ⟨sat', blocked', k, e2, hk, h1, h2, h3⟩ := augmentAll_spec o hm E ht W D
      rw [e2, Option.bind_some]
      have hle := flowInv_le o E h3
      have hadd : add32 w.intensity k = w.intensity + k := Nat.mod_eq_of_lt (by omega)
      refine ⟨_, rfl, ⟨rfl, rfl, h1, h2, ?_, fun h => ?_⟩, Or.inr ⟨trivial, rfl, ?_⟩⟩
      · intro S h4 h5
        simp only
        rw [hadd]
        exact h3 S h4 h5
      · cases h
      · simp only
        rw [hadd]
        omega

end RK
