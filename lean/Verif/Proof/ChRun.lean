import Verif.Proof.ChSearch
/-! Helper lemmas: the bidirectional search. -/
namespace RK
open Spec

variable {n : Nat}

theorem nodup_length_le {L : List Nat} (hn : L.Nodup) (hl : ∀ x ∈ L, x < n) : L.length ≤ n := by
  have := (List.subperm_of_subset hn (l₂ := List.range n) (fun x hx => List.mem_range.2 (hl x hx))).length_le
  simpa using this

/-! ### One step -/

theorem finished_spec {h : ChHalf} {m : Nat → Option Nat} (hq : MinIDQueue.Rep h.queue n m) (best : Nat) :
    ∃ r, h.finished best = some r ∧ (r = true → ∀ y k, m y = some k → best ≤ k) ∧
      (r = false → ∃ x, m x ≠ none) := by
  unfold ChHalf.finished
  by_cases he : h.queue.empty = true
  · refine ⟨true, by simp [he], fun _ y k hk => ?_, fun hh => by cases hh⟩
    have := hq.empty_iff.1 he y
    rw [this] at hk; cases hk
  · have hne : ∃ x, m x ≠ none := by
      by_contra hc
      exact he (hq.empty_iff.2 (fun id => by by_contra h1; exact hc ⟨id, h1⟩))
    obtain ⟨e, ep, h1, h2⟩ := hq.peek hne
    refine ⟨decide (e.key ≥ best), by simp [he, ep], fun hr y k hk => ?_, fun _ => hne⟩
    have := of_decide_eq_true hr
    have := h2 y k hk
    omega

/-- The effect of settling the node `p`. -/
structure Settled (p : Nat) (h : ChHalf) (P : Nat → Bool) (m : Nat → Option Nat) (h' : ChHalf) (P' : Nat → Bool)
    (m' : Nat → Option Nat) : Prop where
  wasIn : m p ≠ none
  wasP : P p = true
  push : ∀ x, P x = true → P' x = true ∧ fn h'.dist x ≤ fn h.dist x
  pop : ∀ x, (P x = true ∧ m x = none) ∨ x = p → m' x = none ∧ fn h'.dist x = fn h.dist x
  pop' : ∀ x, P' x = true → m' x = none → (P x = true ∧ m x = none) ∨ x = p

/-- The best meeting node after `p` was looked at. -/
structure Met (p : Nat) (h o : ChHalf) (Po : Nat → Bool) (best best' : Nat × Nat) : Prop where
  le : best'.1 ≤ best.1
  le_sum : Po p = true → best'.1 ≤ fn h.dist p + fn o.dist p
  cases : best' = best ∨ (Po p = true ∧ best'.2 = p ∧ best'.1 = fn h.dist p + fn o.dist p ∧ best'.1 < best.1)

theorem meet_spec {h o : ChHalf} {Po : Nat → Bool} (hf : TimestampFlags.Rep o.pushed n Po) (hl : o.dist.length = n)
    (hs : ∀ x, Po x = true → fn o.dist x < infWeight) {p : Nat} (hp : p < n) (hk : fn h.dist p < infWeight)
    (best : Nat × Nat) :
    ∃ best', ChHalf.meet o best p (fn h.dist p) = some best' ∧ Met p h o Po best best' := by
  unfold ChHalf.meet
  simp only [hf.isSet hp, Option.bind_eq_bind, Option.bind_some]
  by_cases hP : Po p = true
  · have h1 := hs p hP
    have hsum : add32 (fn h.dist p) (fn o.dist p) = fn h.dist p + fn o.dist p := by
      unfold add32; rw [infWeight_val] at *; rw [u32_val]; omega
    simp only [hP, if_true, rd_fn (v := o.dist) (x := p) (by omega), Option.bind_some, hsum]
    by_cases hgt : best.1 > fn h.dist p + fn o.dist p
    · exact ⟨(fn h.dist p + fn o.dist p, p), by simp only [hgt, if_true], Nat.le_of_lt hgt, fun _ => Nat.le_refl _, Or.inr ⟨hP, rfl, rfl, hgt⟩⟩
    · exact ⟨best, by simp only [hgt, if_false], Nat.le_refl _, fun _ => by omega, Or.inl rfl⟩
  · have hP' : Po p = false := by simpa using hP
    exact ⟨best, by simp [hP'], Nat.le_refl _, fun hh => absurd hh hP, Or.inl rfl⟩

variable {S O : ChSide} {T : Nat} {src : List (Nat × Nat)} {h o : ChHalf} {P Po : Nat → Bool} {m : Nat → Option Nat}

theorem settle_spec (hS : UpSide n S) (hO : UpSide n O) (hn : n ≤ invalidId)
    (hI : HInv n S O.R (fun _ => False) T src h P m) (hf : TimestampFlags.Rep o.pushed n Po) (hl : o.dist.length = n)
    (hs : ∀ x, Po x = true → fn o.dist x < infWeight) (hne : ∃ x, m x ≠ none) (best : Nat × Nat) :
    ∃ h' P' m' T' best' p, ChHalf.settle S O h o best = some (h', best') ∧
      HInv n S O.R (fun _ => False) T' src h' P' m' ∧ Settled p h P m h' P' m' ∧ Met p h o Po best best' := by
  obtain ⟨q, p, eq, h1, h2, h3, h4, hE⟩ := hI.pop hne
  obtain ⟨hpn, hpi⟩ := hI.small p.id h4
  obtain ⟨best', eb, hb⟩ := meet_spec (h := h) hf hl hs hpn hpi best
  obtain ⟨st, es, hst⟩ := canStall_spec hO hE.inv.flags hE.inv.dlen (fun x hx => (hE.inv.small x hx).2) hpn
  rw [h3] at eb
  have hset : ∀ h' P' m', HExt { h with queue := q } P (fun id => if id = p.id then none else m id) h' P' m' →
      Settled p.id h P m h' P' m' := by
    intro h' P' m' hx
    refine ⟨by rw [h1]; simp, h4, hx.push, ?_, ?_⟩
    · intro x hx'
      rcases hx' with ⟨a, b⟩ | rfl
      · exact hx.pop x ⟨a, by split <;> simp [b]⟩
      · exact hx.pop p.id ⟨h4, by simp⟩
    · intro x a b
      obtain ⟨c, d⟩ := hx.pop' x ⟨a, b⟩
      by_cases hxp : x = p.id
      · exact Or.inr hxp
      · simp only [hxp, if_false] at d; exact Or.inl ⟨c, d⟩
  unfold ChHalf.settle
  simp only [eq, eb, es, Option.bind_eq_bind, Option.bind_some]
  cases st with
  | true =>
    obtain ⟨y, w, k1, k2, k3⟩ := hst rfl
    exact ⟨_, _, _, _, best', p.id, by simp, hE.stalled k1 k2 (by rw [← h3]; exact k3), hset _ _ _ HExt.refl, hb⟩
  | false =>
    obtain ⟨h', P', m', ee, hI', hx⟩ := hE.expand hS hn
    exact ⟨h', P', m', p.key, best', p.id, by simp [ee], hI', hset _ _ _ hx, hb⟩

/-! ### The loop -/

/-- The two sides of a hierarchy as the query uses them. -/
structure QOk (n : Nat) (F B : ChSide) : Prop where
  f : UpSide n F
  b : UpSide n B
  n_le : n ≤ invalidId

theorem QOk.swap {F B : ChSide} (h : QOk n F B) : QOk n B F := ⟨h.b, h.f, h.n_le⟩

/-- Joint invariant of both directions. -/
structure RInv (n : Nat) (F B : ChSide) (srcF srcB : List (Nat × Nat)) (f : ChHalf) (Pf : Nat → Bool)
    (mf : Nat → Option Nat) (b : ChHalf) (Pb : Nat → Bool) (mb : Nat → Option Nat) (best : Nat × Nat) : Prop where
  hf : ∃ T, HInv n F B.R (fun _ => False) T srcF f Pf mf
  hb : ∃ T, HInv n B F.R (fun _ => False) T srcB b Pb mb
  le : best.1 ≤ infWeight
  meeting : (best.2 = invalidId ∧ best.1 = infWeight) ∨
    (best.2 ≠ invalidId ∧ Pf best.2 = true ∧ Pb best.2 = true ∧
      fn f.dist best.2 + fn b.dist best.2 ≤ best.1 ∧ best.1 < infWeight)
  both : ∀ x, Pf x = true → mf x = none → Pb x = true → mb x = none → best.1 ≤ fn f.dist x + fn b.dist x

variable {F B : ChSide} {srcF srcB : List (Nat × Nat)} {f b : ChHalf} {Pf Pb : Nat → Bool}
  {mf mb : Nat → Option Nat} {best : Nat × Nat}

theorem RInv.swap (h : RInv n F B srcF srcB f Pf mf b Pb mb best) : RInv n B F srcB srcF b Pb mb f Pf mf best where
  hf := h.hb
  hb := h.hf
  le := h.le
  meeting := by
    rcases h.meeting with hh | ⟨h0, h1, h2, h3, h4⟩
    · exact Or.inl hh
    · exact Or.inr ⟨h0, h2, h1, by omega, h4⟩
  both := fun x a b c d => by have := h.both x c d a b; omega

theorem RInv.settle (hQ : QOk n F B) (h : RInv n F B srcF srcB f Pf mf b Pb mb best) (hne : ∃ x, mf x ≠ none) :
    ∃ f' Pf' mf' best' p, ChHalf.settle F B f b best = some (f', best') ∧
      RInv n F B srcF srcB f' Pf' mf' b Pb mb best' ∧ Settled p f Pf mf f' Pf' mf' := by
  obtain ⟨T, hf⟩ := h.hf
  obtain ⟨T', hb⟩ := h.hb
  obtain ⟨f', Pf', mf', T'', best', p, e, hI, hset, hmet⟩ := settle_spec hQ.f hQ.b hQ.n_le hf hb.flags hb.dlen
    (fun x hx => (hb.small x hx).2) hne best
  refine ⟨f', Pf', mf', best', p, e, ⟨⟨T'', hI⟩, ⟨T', hb⟩, Nat.le_trans hmet.le h.le, ?_, ?_⟩, hset⟩
  · rcases hmet.cases with hh | ⟨h1, h2, h3, h4⟩
    · rw [hh]
      rcases h.meeting with hh | ⟨h0, h1, h2, h3, h4⟩
      · exact Or.inl hh
      · right
        refine ⟨h0, (hset.push _ h1).1, h2, ?_, h4⟩
        have := (hset.push _ h1).2
        omega
    · right
      have hpn := (hf.small p hset.wasP).1
      have := hQ.n_le
      have hle := h.le
      have hd := (hset.pop p (Or.inr rfl)).2
      rw [h2, h3, hd]
      exact ⟨by omega, (hset.push p hset.wasP).1, h1, Nat.le_refl _, by omega⟩
  · intro x h1 h2 h3 h4
    rcases hset.pop' x h1 h2 with hh | rfl
    · rw [(hset.pop x (Or.inl hh)).2]
      exact Nat.le_trans hmet.le (h.both x hh.1 hh.2 h3 h4)
    · rw [(hset.pop x (Or.inr rfl)).2]
      exact hmet.le_sum h3

/-- The list of popped nodes, used to bound the number of iterations. -/
def PoppedList (n : Nat) (P : Nat → Bool) (m : Nat → Option Nat) (L : List Nat) : Prop :=
  L.Nodup ∧ ∀ x ∈ L, x < n ∧ P x = true ∧ m x = none

theorem PoppedList.settled {L : List Nat} {p : Nat} {h' : ChHalf} {P' : Nat → Bool} {m' : Nat → Option Nat}
    (hL : PoppedList n P m L) (hs : Settled p h P m h' P' m') (hp : p < n) : PoppedList n P' m' (p :: L) := by
  refine ⟨List.nodup_cons.2 ⟨fun hc => hs.wasIn (hL.2 p hc).2.2, hL.1⟩, ?_⟩
  intro x hx
  rcases List.mem_cons.1 hx with rfl | hx
  · exact ⟨hp, (hs.push _ hs.wasP).1, (hs.pop _ (Or.inr rfl)).1⟩
  · obtain ⟨h1, h2, h3⟩ := hL.2 x hx
    exact ⟨h1, (hs.push x h2).1, (hs.pop x (Or.inl ⟨h2, h3⟩)).1⟩

theorem PoppedList.length_lt {L : List Nat} (hL : PoppedList n P m L) {p : Nat} (hp : p < n) (hm : m p ≠ none) :
    L.length < n := by
  have : (p :: L).length ≤ n := nodup_length_le (List.nodup_cons.2 ⟨fun hc => hm (hL.2 p hc).2.2, hL.1⟩)
    (by intro x hx; rcases List.mem_cons.1 hx with rfl | hx; exacts [hp, (hL.2 x hx).1])
  rw [List.length_cons] at this
  omega

theorem chRunLoop_spec {ch : Ch} (hQ : QOk n ch.forward ch.backward) : ∀ fuel {f b Pf mf Pb mb best} (nx : Bool) {Lf Lb : List Nat},
    RInv n ch.forward ch.backward srcF srcB f Pf mf b Pb mb best → PoppedList n Pf mf Lf → PoppedList n Pb mb Lb →
    2 * n + 1 ≤ fuel + Lf.length + Lb.length →
    ∃ f' b' best' Pf' mf' Pb' mb', ChQuery.runLoop ch fuel f b best nx = some (f', b', best') ∧
      RInv n ch.forward ch.backward srcF srcB f' Pf' mf' b' Pb' mb' best' ∧
      (∀ y k, mf' y = some k → best'.1 ≤ k) ∧ (∀ y k, mb' y = some k → best'.1 ≤ k)
  | 0, f, b, Pf, mf, Pb, mb, best, nx, Lf, Lb, h, hLf, hLb, hfuel => by
    have h1 := nodup_length_le hLf.1 (fun x hx => (hLf.2 x hx).1)
    have h2 := nodup_length_le hLb.1 (fun x hx => (hLb.2 x hx).1)
    omega
  | fuel + 1, f, b, Pf, mf, Pb, mb, best, nx, Lf, Lb, h, hLf, hLb, hfuel => by
    obtain ⟨T1, hf⟩ := h.hf
    obtain ⟨T2, hb⟩ := h.hb
    obtain ⟨r1, e1, h1, h1'⟩ := finished_spec hf.queue best.1
    obtain ⟨r2, e2, h2, h2'⟩ := finished_spec hb.queue best.1
    unfold ChQuery.runLoop
    simp only [e1, e2, Option.bind_eq_bind, Option.bind_some]
    by_cases hfin : (r1 && r2) = true
    · simp only [hfin, if_true]
      rw [Bool.and_eq_true] at hfin
      exact ⟨f, b, best, Pf, mf, Pb, mb, rfl, h, h1 hfin.1, h2 hfin.2⟩
    · simp only [hfin, Bool.false_eq_true, if_false]
      by_cases hnx : ChQuery.nextForward r1 r2 nx = true
      · simp only [hnx, if_true]
        have hr1 : r1 = false := by
          unfold ChQuery.nextForward at hnx
          cases r1 <;> cases r2 <;> simp_all
        obtain ⟨f', Pf', mf', best', p, es, hR, hset⟩ := h.settle hQ (h1' hr1)
        have hp := (hf.small p hset.wasP).1
        simp only [es, Option.bind_some]
        exact chRunLoop_spec hQ fuel false hR (hLf.settled hset hp) hLb (by simp; omega)
      · simp only [hnx, Bool.false_eq_true, if_false]
        have hr2 : r2 = false := by
          unfold ChQuery.nextForward at hnx
          cases r1 <;> cases r2 <;> simp_all
        obtain ⟨b', Pb', mb', best', p, es, hR, hset⟩ := h.swap.settle hQ.swap (h2' hr2)
        have hp := (hb.small p hset.wasP).1
        simp only [es, Option.bind_some]
        exact chRunLoop_spec hQ fuel true hR.swap hLf (hLb.settled hset hp) (by simp; omega)

/-- When both directions are finished no shorter connection exists. -/
theorem RInv.complete (hH : HierB n (fun x => x) F.R B.R infWeight) (h : RInv n F B srcF srcB f Pf mf b Pb mb best)
    (hfF : ∀ y k, mf y = some k → best.1 ≤ k) (hfB : ∀ y k, mb y = some k → best.1 ≤ k)
    {s ds t dt l : Nat} (hs : (s, ds) ∈ srcF) (ht : (t, dt) ∈ srcB) (hw : RWalk (UR (fun x => x) 0 F.R B.R) s t l)
    (hlt : ds + l + dt < infWeight) : best.1 ≤ ds + l + dt := by
  obtain ⟨T1, hf⟩ := h.hf
  obtain ⟨T2, hb⟩ := h.hb
  have hFF : ∀ a la c w, (Pf a = true ∧ fn f.dist a ≤ la) → F.R a c w → la + w ≤ ds + l + dt →
      best.1 ≤ ds + l + dt ∨ ∃ a' la' lw, (Pf a' = true ∧ fn f.dist a' ≤ la') ∧
        RWalk (UR (fun x => x) (a + 1) F.R B.R) a' c lw ∧ la' + lw ≤ la + w := by
    rintro a la c w ⟨h1, h2⟩ hF hle
    cases hmf : mf a with
    | some k =>
      have := hfF a k hmf
      have := (hf.key a k hmf).2.1
      left; omega
    | none =>
      right
      rcases hf.closed a h1 hmf id with ⟨y, w', k1, k2, k3⟩ | hcl
      · by_cases hyc : y = c
        · subst hyc
          exact ⟨y, fn f.dist y, 0, ⟨k2, Nat.le_refl _⟩, RWalk.nil y, by omega⟩
        · obtain ⟨lw, q1, q2⟩ := hH.tri a y c w' w k1 hF hyc (by omega)
          exact ⟨y, fn f.dist y, lw, ⟨k2, Nat.le_refl _⟩, q2, by omega⟩
      · obtain ⟨q1, q2⟩ := hcl c w hF (by omega)
        exact ⟨c, fn f.dist c, 0, ⟨q1, Nat.le_refl _⟩, RWalk.nil c, by omega⟩
  have hBB : ∀ a la c w, (Pb a = true ∧ fn b.dist a ≤ la) → B.R a c w → la + w ≤ ds + l + dt →
      best.1 ≤ ds + l + dt ∨ ∃ a' la' lw, (Pb a' = true ∧ fn b.dist a' ≤ la') ∧
        RWalk (UR (fun x => x) (a + 1) F.R B.R) c a' lw ∧ la' + lw ≤ la + w := by
    rintro a la c w ⟨h1, h2⟩ hB hle
    cases hmb : mb a with
    | some k =>
      have := hfB a k hmb
      have := (hb.key a k hmb).2.1
      left; omega
    | none =>
      right
      rcases hb.closed a h1 hmb id with ⟨y, w', k1, k2, k3⟩ | hcl
      · by_cases hyc : y = c
        · subst hyc
          exact ⟨y, fn b.dist y, 0, ⟨k2, Nat.le_refl _⟩, RWalk.nil y, by omega⟩
        · obtain ⟨lw, q1, q2⟩ := hH.tri a c y w w' hB k1 (fun e => hyc e.symm) (by omega)
          exact ⟨y, fn b.dist y, lw, ⟨k2, Nat.le_refl _⟩, q2, by omega⟩
      · obtain ⟨q1, q2⟩ := hcl c w hB (by omega)
        exact ⟨c, fn b.dist c, 0, ⟨q1, Nat.le_refl _⟩, RWalk.nil c, by omega⟩
  rcases hH.meet (PF := fun a la => Pf a = true ∧ fn f.dist a ≤ la) (PB := fun c lc => Pb c = true ∧ fn b.dist c ≤ lc)
    (μ := ds + l + dt) (Done := best.1 ≤ ds + l + dt) hFF hBB (hf.srcs s ds hs) (hb.srcs t dt ht) hw (Nat.le_refl _) hlt
    with hd | ⟨p, l1, l2, ⟨p1, p2⟩, ⟨p3, p4⟩, p5⟩
  · exact hd
  · cases hmf : mf p with
    | some k =>
      have := hfF p k hmf
      have := (hf.key p k hmf).2.1
      omega
    | none =>
      cases hmb : mb p with
      | some k =>
        have := hfB p k hmb
        have := (hb.key p k hmb).2.1
        omega
      | none =>
        have := h.both p p1 hmf p3 hmb
        omega

/-! ### Following the predecessors -/

theorem chWalk_snoc {A : ArcRel} {s x y a l w : Nat} {p : List Nat} (h : Walk A s p x l) (ha : A a x y w) :
    Walk A s (p ++ [a]) y (l + w) := by
  induction h with
  | nil s => simpa using Walk.cons ha (Walk.nil y)
  | cons hb _ ih => rw [List.cons_append, Nat.add_assoc]; exact Walk.cons hb (ih ha)

theorem chain_spec {St : ArcR} {ex : Nat → Prop} (hS : UpSide n S) (hn : n ≤ invalidId) (hI : HInv n S St ex T src h P m) :
    ∀ fuel x, x < fuel → P x = true → ∃ arcs s d l, ChHalf.chain h fuel x = some (arcs, s) ∧ (s, d) ∈ src ∧
      Walk S.Arc s arcs.reverse x l ∧ fn h.dist x = d + l ∧ s < n
  | 0, x, hx, _ => absurd hx (Nat.not_lt_zero x)
  | fuel + 1, x, hx, hP => by
    obtain ⟨hxn, _⟩ := hI.small x hP
    have hxp : x < h.predNode.length := by rw [hI.plen]; exact hxn
    have hxa : x < h.predArc.length := by rw [hI.alen]; exact hxn
    unfold ChHalf.chain
    simp only [rd_fn hxp, Option.bind_eq_bind, Option.bind_some]
    rcases hI.why x hP with ⟨h1, h2⟩ | ⟨p, a, w, h1, h2, h3, h4, h5, h6⟩
    · exact ⟨[], x, _, 0, by simp [h1], h2, Walk.nil x, rfl, hxn⟩
    · obtain ⟨k1, k2, k3⟩ := hS.arc h3
      obtain ⟨arcs, s, d, l, e, q1, q2, q3, q4⟩ := chain_spec hS hn hI fuel p (by omega) h4
      have hpi : p ≠ invalidId := by omega
      refine ⟨a :: arcs, s, d, l + w, ?_, q1, ?_, by omega, q4⟩
      · simp only [h1, hpi, if_false, hI.flags.isSet hxn, hP, check_true, Option.bind_some, k1, decide_true, rd_fn hxa, h2, e]
      · rw [List.reverse_cons]; exact chWalk_snoc q2 h3

end RK
