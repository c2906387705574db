import Verif.Proof.ChPin
/-! Helper lemmas: running a query to pinned targets. -/
namespace RK
open Spec

variable {n : Nat} {S O : ChSide} {src : List (Nat × Nat)}

abbrev noStall : ArcR := fun _ _ _ => False

/-- Before the first expansion the stalling relation does not matter. -/
theorem HInv.restart {St St' : ArcR} {ex ex' : Nat → Prop} {T : Nat} {h : ChHalf} {P : Nat → Bool} {m : Nat → Option Nat}
    (hI : HInv n S St ex T src h P m) (hu : Unstarted P m) : HInv n S St' ex' T src h P m :=
  { hI with closed := fun x hx hm => absurd hm (hu x hx) }

theorem fullSearch_spec (hS : UpSide n S) (hn : n ≤ invalidId) : ∀ fuel {T : Nat} {h : ChHalf} {P : Nat → Bool}
    {m : Nat → Option Nat} {L : List Nat}, HInv n S noStall (fun _ => False) T src h P m → PoppedList n P m L →
    n + 1 ≤ fuel + L.length →
    ∃ h' P' T', ChHalf.fullSearch S fuel h = some h' ∧ HInv n S noStall (fun _ => False) T' src h' P' (fun _ => none)
  | 0, T, h, P, m, L, hI, hL, hf => by
    have := nodup_length_le hL.1 (fun x hx => (hL.2 x hx).1)
    omega
  | fuel + 1, T, h, P, m, L, hI, hL, hf => by
    unfold ChHalf.fullSearch
    by_cases he : h.queue.empty = true
    · have hm : m = fun _ => none := funext (hI.queue.empty_iff.1 he)
      subst hm
      exact ⟨h, P, T, by simp [he], hI⟩
    · have hne : ∃ x, m x ≠ none := by
        by_contra hc
        exact he (hI.queue.empty_iff.2 (fun id => by by_contra h1; exact hc ⟨id, h1⟩))
      obtain ⟨q, p, eq, h1, h2, h3, h4, hE⟩ := hI.pop hne
      obtain ⟨hpn, _⟩ := hI.small p.id h4
      obtain ⟨h', P', m', ee, hI', hx⟩ := hE.expand hS hn
      have hset : Settled p.id h P m h' P' m' := by
        refine ⟨by rw [h1]; simp, h4, hx.push, ?_, ?_⟩
        · intro x hx'
          rcases hx' with ⟨a, b⟩ | rfl
          · exact hx.pop x ⟨a, by split <;> simp [b]⟩
          · exact hx.pop p.id ⟨h4, by simp⟩
        · intro x a b
          obtain ⟨c, d⟩ := hx.pop' x ⟨a, b⟩
          by_cases hxp : x = p.id
          · exact Or.inr hxp
          · simp only [hxp, if_false] at d; exact Or.inl ⟨c, d⟩
      obtain ⟨h'', P'', T'', e2, hI''⟩ := fullSearch_spec hS hn fuel hI' (hL.settled hset hpn) (by simp; omega)
      exact ⟨h'', P'', T'', by simp [he, eq, ee, e2], hI''⟩

/-! ### Sweeping down -/

/-- The label of a selected node `x`; `P0`, `D0` describe the end of the upward search. -/
inductive Swept (O : ChSide) (P0 : Nat → Bool) (D0 : Nat → Nat) (h : ChHalf) (P : Nat → Bool) (x : Nat) : Prop
  | up (hP : P x = true) (hP0 : P0 x = true) (hd : fn h.dist x = D0 x) (hlt : D0 x < infWeight)
      (hm : ∀ y w, O.R x y w → fn h.dist x ≤ fn h.dist y + w)
  | down (hP : P x = false) (a y w : Nat) (hA : O.Arc a x y w) (ha : fn h.predArc x = a)
      (hd : fn h.dist x = fn h.dist y + w) (hlt : fn h.dist x < infWeight) (hlt0 : P0 x = true → fn h.dist x < D0 x)
      (hm : ∀ y w, O.R x y w → fn h.dist x ≤ fn h.dist y + w)
  | inf (hP : P x = false) (hP0 : P0 x = false) (hd : fn h.dist x = infWeight) (ha : fn h.predArc x = invalidId)
      (hm : ∀ y w, O.R x y w → fn h.dist x ≤ fn h.dist y + w)

variable {P0 : Nat → Bool} {D0 : Nat → Nat} {h : ChHalf} {P : Nat → Bool} {x : Nat}

theorem Swept.mono (hs : Swept O P0 D0 h P x) : ∀ y w, O.R x y w → fn h.dist x ≤ fn h.dist y + w := by
  cases hs with
  | up _ _ _ _ hm => exact hm
  | down _ _ _ _ _ _ _ _ _ hm => exact hm
  | inf _ _ _ _ hm => exact hm

theorem Swept.le_inf (hs : Swept O P0 D0 h P x) : fn h.dist x ≤ infWeight := by
  cases hs with
  | up _ _ hd hlt _ => omega
  | down _ _ _ _ _ _ _ hlt _ _ => omega
  | inf _ _ hd _ _ => omega

theorem Swept.le_up (hs : Swept O P0 D0 h P x) (hP : P0 x = true) : fn h.dist x ≤ D0 x := by
  cases hs with
  | up _ _ hd hlt _ => omega
  | down _ _ _ _ _ _ _ _ hlt0 _ => exact Nat.le_of_lt (hlt0 hP)
  | inf _ hP0 _ _ _ => rw [hP] at hP0; cases hP0

/-- Changes at other nodes do not matter. -/
theorem Swept.congr (hs : Swept O P0 D0 h P x) {h' : ChHalf} {P' : Nat → Bool}
    (hx : P' x = P x ∧ fn h'.dist x = fn h.dist x ∧ fn h'.predArc x = fn h.predArc x)
    (hy : ∀ y w, O.R x y w → fn h'.dist y = fn h.dist y) : Swept O P0 D0 h' P' x := by
  obtain ⟨h1, h2, h3⟩ := hx
  have hm' : (∀ y w, O.R x y w → fn h.dist x ≤ fn h.dist y + w) → ∀ y w, O.R x y w → fn h'.dist x ≤ fn h'.dist y + w := by
    intro hm y w hR
    rw [h2, hy y w hR]; exact hm y w hR
  cases hs with
  | up hP hP0 hd hlt hm => exact .up (by rw [h1, hP]) hP0 (by rw [h2, hd]) hlt (hm' hm)
  | down hP a y w hA ha hd hlt hlt0 hm =>
    exact .down (by rw [h1, hP]) a y w hA (by rw [h3, ha]) (by rw [h2, hd, hy y w ⟨a, hA⟩]) (by rw [h2]; exact hlt)
      (by rw [h2]; exact hlt0) (hm' hm)
  | inf hP hP0 hd ha hm => exact .inf (by rw [h1, hP]) hP0 (by rw [h2, hd]) (by rw [h3, ha]) (hm' hm)

/-- The state after the first `i` selected nodes have been swept; `h0` is the half after the search. -/
structure SweepInv (n : Nat) (O : ChSide) (sel : List Nat) (h0 : ChHalf) (P0 : Nat → Bool) (i : Nat) (h : ChHalf)
    (P : Nat → Bool) : Prop where
  flags : TimestampFlags.Rep h.pushed n P
  dlen : h.dist.length = n
  plen : h.predNode = h0.predNode
  alen : h.predArc.length = n
  queue : h.queue = h0.queue
  rest : ∀ x, (∀ j, j < i → fn sel j ≠ x) → P x = P0 x ∧ fn h.dist x = fn h0.dist x ∧ fn h.predArc x = fn h0.predArc x
  swept : ∀ j, j < i → Swept O P0 (fn h0.dist) h P (fn sel j)
  parc : ∀ x, P x = true → fn h.predArc x = fn h0.predArc x

theorem bestArcs_spec (hO : UpSide n O) {x b e : Nat} (hb : O.firstOut[x]? = some b)
    (he : O.firstOut[x + 1]? = some e) (hbe : b ≤ e) {dist : List Nat} (hl : dist.length = n)
    (hsm : ∀ y w, O.R x y w → fn dist y ≤ infWeight) (d : Nat) :
    ∃ d' pred, forRange b e (d, invalidId) (ChHalf.bestArc O dist) = some (d', pred) ∧
      ((pred = invalidId ∧ d' = d) ∨ (pred ≠ invalidId ∧ d' < d ∧ ∃ y w, O.Arc pred x y w ∧ d' = fn dist y + w)) ∧
      ∀ y w, O.R x y w → d' ≤ fn dist y + w := by
  obtain ⟨⟨d', pred⟩, er, hc, hm⟩ := forRange_inv (lo := b) (hi := e) (s := (d, invalidId)) (f := ChHalf.bestArc O dist)
    (fun i s => ((s.2 = invalidId ∧ s.1 = d) ∨ (s.2 ≠ invalidId ∧ s.1 < d ∧ ∃ y w, O.Arc s.2 x y w ∧ s.1 = fn dist y + w)) ∧
      ∀ a y w, a < i → O.Arc a x y w → s.1 ≤ fn dist y + w)
    hbe ⟨Or.inl ⟨rfl, rfl⟩, fun a y w ha hA => by
      obtain ⟨b', e', hb', _, h1, _⟩ := hA.1
      have : some b = some b' := hb.symm.trans hb'
      cases this; omega⟩
    (by
      rintro i ⟨d1, p1⟩ hi1 hi2 ⟨hc, hm⟩
      dsimp only at hc hm
      obtain ⟨y, w, hy, hw, hA⟩ := hO.rd_arc (x := x) (a := i) ⟨b, e, hb, he, hi1, hi2⟩
      obtain ⟨_, hyn, hwl⟩ := hO.arc hA
      have hyi := hsm y w ⟨i, hA⟩
      have hs : add32 (fn dist y) w = fn dist y + w := by
        unfold add32; rw [infWeight_val] at *; rw [u32_val]; omega
      unfold ChHalf.bestArc
      simp only [hy, hw, rd_fn (v := dist) (x := y) (by omega), Option.bind_eq_bind, Option.bind_some, hs]
      have hd1 : d1 ≤ d := by
        rcases hc with ⟨_, h1⟩ | ⟨_, h1, _⟩ <;> omega
      have hii : i ≠ invalidId := by
        have := arc_lt' hO hA
        have := hO.ok.size
        omega
      by_cases hlt : fn dist y + w < d1
      · refine ⟨(fn dist y + w, i), by simp [hlt], Or.inr ⟨hii, by dsimp only; omega, y, w, hA, rfl⟩, ?_⟩
        intro a y' w' ha hA'
        dsimp only
        by_cases hai : a = i
        · subst hai
          have e1 : some y = some y' := hA.2.1.symm.trans hA'.2.1
          have e2 : some w = some w' := hA.2.2.symm.trans hA'.2.2
          cases e1; cases e2; omega
        · have := hm a y' w' (by omega) hA'
          omega
      · refine ⟨(d1, p1), by simp [hlt], hc, ?_⟩
        intro a y' w' ha hA'
        dsimp only
        by_cases hai : a = i
        · subst hai
          have e1 : some y = some y' := hA.2.1.symm.trans hA'.2.1
          have e2 : some w = some w' := hA.2.2.symm.trans hA'.2.2
          cases e1; cases e2; omega
        · exact hm a y' w' (by omega) hA')
  refine ⟨d', pred, er, hc, ?_⟩
  rintro y w ⟨a, hA⟩
  obtain ⟨b', e', hb', he', k1, k2⟩ := hA.1
  have : some e = some e' := he.symm.trans he'
  cases this
  exact hm a y w k2 hA

theorem sweepStep_spec (hO : UpSide n O) {sel : List Nat} {k : Nat} (hsel : SelOk n O sel k) {h0 : ChHalf} {P0 : Nat → Bool}
    (hP0 : ∀ x, P0 x = true → fn h0.dist x < infWeight) {i : Nat} (hi : i < k)
    (hI : SweepInv n O sel h0 P0 i h P) :
    ∃ h' P', ChHalf.pinnedStep O sel h i = some h' ∧ SweepInv n O sel h0 P0 (i + 1) h' P' := by
  have hil : i < sel.length := by have := hsel.len; have := hsel.k_le; omega
  have hxn := hsel.lt i hi
  have hdisj : ∀ j, j < i → fn sel j ≠ fn sel i := by
    intro j hj he
    have := hsel.desc j i hj hi
    omega
  obtain ⟨hPx, hdx, hax⟩ := hI.rest (fn sel i) hdisj
  -- arcs of x lead to swept nodes
  have hup : ∀ y w, O.R (fn sel i) y w → ∃ j, j < i ∧ fn sel j = y := by
    intro y w hR
    obtain ⟨j, hj, hy⟩ := hsel.closed i y w hi hR
    have hlt := (hO.up _ _ _ hR).1
    refine ⟨j, ?_, hy⟩
    by_contra hc
    rcases Nat.lt_or_eq_of_le (Nat.le_of_not_lt hc) with hc | hc
    · have := hsel.desc i j hc hj; omega
    · subst hc; omega
  have hle : ∀ y w, O.R (fn sel i) y w → fn h.dist y ≤ infWeight := by
    intro y w hR
    obtain ⟨j, hj, rfl⟩ := hup y w hR
    exact (hI.swept j hj).le_inf
  -- an update of the node x keeps everything else
  have upd : ∀ (h' : ChHalf) (P' : Nat → Bool), TimestampFlags.Rep h'.pushed n P' → h'.dist.length = n →
      h'.predNode = h.predNode → h'.predArc.length = n → h'.queue = h.queue →
      (∀ y, y ≠ fn sel i → P' y = P y ∧ fn h'.dist y = fn h.dist y ∧ fn h'.predArc y = fn h.predArc y) →
      Swept O P0 (fn h0.dist) h' P' (fn sel i) →
      (P' (fn sel i) = true → P (fn sel i) = true ∧ fn h'.predArc (fn sel i) = fn h.predArc (fn sel i)) →
      SweepInv n O sel h0 P0 (i + 1) h' P' := by
    intro h' P' g1 g2 g3 g4 g5 g6 g7 g8
    refine ⟨g1, g2, g3.trans hI.plen, g4, g5.trans hI.queue, ?_, ?_, ?_⟩
    · intro y hy
      obtain ⟨a1, a2, a3⟩ := g6 y (fun e => hy i (by omega) e.symm)
      obtain ⟨b1, b2, b3⟩ := hI.rest y (fun j hj => hy j (by omega))
      exact ⟨a1.trans b1, a2.trans b2, a3.trans b3⟩
    · intro j hj
      rcases Nat.lt_or_eq_of_le (Nat.le_of_lt_succ hj) with hj | rfl
      · refine (hI.swept j hj).congr (g6 _ (hdisj j hj)) ?_
        intro y w hR
        refine (g6 y ?_).2.1
        rintro rfl
        have h1 := (hO.up _ _ _ hR).1
        have h2 := hsel.desc j i hj hi
        omega
      · exact g7
    · intro y hy
      by_cases hyi : y = fn sel i
      · subst hyi
        obtain ⟨a1, a2⟩ := g8 hy
        exact a2.trans (hI.parc _ a1)
      · obtain ⟨a1, _, a3⟩ := g6 y hyi
        exact a3.trans (hI.parc y (by rw [← a1]; exact hy))
  obtain ⟨b, e, hb, he, hbe, hel⟩ := hO.ok.csr.range hxn
  have hxd : fn sel i < h.dist.length := by rw [hI.dlen]; exact hxn
  have hxa : fn sel i < h.predArc.length := by rw [hI.alen]; exact hxn
  have hstart : ChHalf.startDist h (fn sel i) = some (if P (fn sel i) = true then fn h.dist (fn sel i) else infWeight) := by
    unfold ChHalf.startDist
    rw [hI.flags.isSet hxn]
    simp only [Option.bind_eq_bind, Option.bind_some]
    split
    · rw [rd_fn hxd]
    · rfl
  obtain ⟨d', pred, er, hc, hm⟩ := bestArcs_spec hO hb he hbe hI.dlen hle (if P (fn sel i) = true then fn h.dist (fn sel i) else infWeight)
  unfold ChHalf.pinnedStep
  simp only [rd_fn hil, hstart, show rd O.firstOut (fn sel i) = some b from hb,
    show rd O.firstOut (fn sel i + 1) = some e from he, er, Option.bind_eq_bind, Option.bind_some]
  have hsetd : ∀ v y, fn (h.dist.set (fn sel i) v) y = if y = fn sel i then v else fn h.dist y := fun v y => fn_set hxd
  have hseta : ∀ v y, fn (h.predArc.set (fn sel i) v) y = if y = fn sel i then v else fn h.predArc y := fun v y => fn_set hxa
  have hmx : ∀ v, v ≤ d' → ∀ y w, O.R (fn sel i) y w →
      fn (h.dist.set (fn sel i) v) (fn sel i) ≤ fn (h.dist.set (fn sel i) v) y + w := by
    intro v hv y w hR
    have := hm y w hR
    have hne : y ≠ fn sel i := by have := (hO.up _ _ _ hR).1; omega
    rw [hsetd, hsetd, if_pos rfl, if_neg hne]
    omega
  rcases hc with ⟨hp, hd'⟩ | ⟨hp, hlt, y, w, hA, hd'⟩
  · unfold ChHalf.storeBest
    simp only [hp, ne_eq, not_true_eq_false, if_false]
    by_cases hPt : P (fn sel i) = true
    · rw [if_pos hPt] at hd'
      have hlt := hP0 (fn sel i) (by rw [← hPx]; exact hPt)
      have hne : ¬ d' = infWeight := by omega
      refine ⟨h, P, by simp only [hne, if_false], upd h P hI.flags hI.dlen rfl hI.alen rfl (fun _ _ => ⟨rfl, rfl, rfl⟩) ?_ (fun hP => ⟨hP, rfl⟩)⟩
      exact .up hPt (by rw [← hPx]; exact hPt) hdx hlt (fun y w hR => by have := hm y w hR; omega)
    · rw [if_neg hPt] at hd'
      have hPf : P (fn sel i) = false := by simpa using hPt
      refine ⟨{ h with dist := h.dist.set (fn sel i) infWeight, predArc := h.predArc.set (fn sel i) invalidId }, P,
        by simp only [hd', if_true, wr_lt hxd, wr_lt hxa, Option.bind_eq_bind, Option.bind_some], upd _ P hI.flags
        (by simp [hI.dlen]) rfl (by simp [hI.alen]) rfl ?_ ?_ (fun hP => absurd hP hPt)⟩
      · intro y hy
        exact ⟨rfl, by simp only [hsetd, hy, if_false], by simp only [hseta, hy, if_false]⟩
      · exact .inf hPf (by rw [← hPx]; exact hPf) (by simp only [hsetd, if_true]) (by simp only [hseta, if_true])
          (hmx _ (by omega))
  · obtain ⟨f, ef, hf⟩ := hI.flags.resetOne hxn
    have hlt' : d' < infWeight ∧ (P0 (fn sel i) = true → d' < fn h0.dist (fn sel i)) := by
      by_cases hPt : P (fn sel i) = true
      · rw [if_pos hPt] at hlt
        have := hP0 (fn sel i) (by rw [← hPx]; exact hPt)
        exact ⟨by omega, fun _ => by omega⟩
      · rw [if_neg hPt] at hlt
        refine ⟨hlt, fun hc => ?_⟩
        rw [← hPx] at hc; exact absurd hc hPt
    have hne : y ≠ fn sel i := by have := (hO.arc hA).1; omega
    refine ⟨{ h with dist := h.dist.set (fn sel i) d', predArc := h.predArc.set (fn sel i) pred, pushed := f },
      fun j => if j = fn sel i then false else P j, ?_, upd _ _ hf
      (by simp [hI.dlen]) rfl (by simp [hI.alen]) rfl ?_ ?_ (fun hP => by simp at hP)⟩
    · unfold ChHalf.storeBest
      simp only [ne_eq, hp, not_false_eq_true, if_true, wr_lt hxd, wr_lt hxa, ef, Option.bind_eq_bind, Option.bind_some]
    · intro y hy
      exact ⟨by simp only [hy, if_false], by simp only [hsetd, hy, if_false], by simp only [hseta, hy, if_false]⟩
    · refine .down (by simp) pred y w hA (by simp only [hseta, if_true]) ?_ ?_ ?_ (hmx _ (Nat.le_refl _))
      · simp only [hsetd, if_true, hne, if_false]; exact hd'
      · simp only [hsetd, if_true]; exact hlt'.1
      · simp only [hsetd, if_true]; exact hlt'.2

/-- The state after `pinned_run`. -/
structure PinnedDone (n : Nat) (S O : ChSide) (src : List (Nat × Nat)) (sel : List Nat) (k : Nat) (h0 : ChHalf)
    (P0 : Nat → Bool) (h : ChHalf) (P : Nat → Bool) : Prop where
  search : ∃ T, HInv n S noStall (fun _ => False) T src h0 P0 (fun _ => none)
  sweep : SweepInv n O sel h0 P0 k h P

theorem pinnedRun_spec (hS : UpSide n S) (hO : UpSide n O) (hn : n ≤ invalidId) {sel : List Nat} {k : Nat}
    (hsel : SelOk n O sel k) {St : ArcR} {ex : Nat → Prop} {m : Nat → Option Nat}
    (hI : HInv n S St ex 0 src h P m) (hu : Unstarted P m) :
    ∃ h' h0 P0 P', ChHalf.pinnedRun S O sel k h = some h' ∧ PinnedDone n S O src sel k h0 P0 h' P' := by
  obtain ⟨h0, P0, T, e0, hI0⟩ := fullSearch_spec hS hn (h.dist.length + 1) (hI.restart hu)
    (L := []) ⟨List.nodup_nil, by simp⟩ (by simp [hI.dlen])
  obtain ⟨h', e1, P', hI'⟩ := forRange_inv (lo := 0) (hi := k) (s := h0) (f := ChHalf.pinnedStep O sel)
    (fun i h' => ∃ P', SweepInv n O sel h0 P0 i h' P') (Nat.zero_le _)
    ⟨P0, hI0.flags, hI0.dlen, rfl, hI0.alen, rfl, fun _ _ => ⟨rfl, rfl, rfl⟩, fun j hj => absurd hj (Nat.not_lt_zero j),
      fun _ _ => rfl⟩
    (by
      rintro i h1 _ hi ⟨P1, hI1⟩
      obtain ⟨h2, P2, e2, hI2⟩ := sweepStep_spec hO hsel (fun x hx => (hI0.small x hx).2) hi hI1
      exact ⟨h2, e2, P2, hI2⟩)
  exact ⟨h', h0, P0, P', by simp only [ChHalf.pinnedRun, e0, e1, Option.bind_eq_bind, Option.bind_some], ⟨T, hI0⟩, hI'⟩

section Done
variable {sel : List Nat} {k : Nat} {h0 : ChHalf}

/-- Sources reach `x` with total length `d`. -/
def Reach (S O : ChSide) (src : List (Nat × Nat)) (x d : Nat) : Prop :=
  ∃ s ds l, (s, ds) ∈ src ∧ RWalk (UR (fun x => x) 0 S.R O.R) s x l ∧ d = ds + l

theorem Reach.step {x y d w : Nat} (hr : Reach S O src x d) (h : S.R x y w ∨ O.R y x w) : Reach S O src y (d + w) := by
  obtain ⟨s, ds, l, h1, h2, rfl⟩ := hr
  exact ⟨s, ds, l + w, h1, h2.snoc ⟨h, Nat.zero_le _, Nat.zero_le _⟩, by omega⟩

theorem PinnedDone.upper (hd : PinnedDone n S O src sel k h0 P0 h P) {s ds x l : Nat} (hs : (s, ds) ∈ src)
    (hw : RWalk S.R s x l) (hlt : ds + l < infWeight) : P0 x = true ∧ fn h0.dist x ≤ ds + l := by
  obtain ⟨T, hI⟩ := hd.search
  have gen : ∀ x y l, RWalk S.R x y l → ∀ d, P0 x = true → fn h0.dist x ≤ d → d + l < infWeight →
      P0 y = true ∧ fn h0.dist y ≤ d + l := by
    intro x y l hw
    induction hw with
    | nil x => intro d h1 h2 _; exact ⟨h1, by omega⟩
    | @cons x y z w l ha _ ih =>
      intro d h1 h2 h3
      rcases hI.closed x h1 rfl id with ⟨_, _, hc, _⟩ | hc
      · exact hc.elim
      · obtain ⟨h4, h5⟩ := hc y w ha (by omega)
        have := ih (d + w) h4 (by omega) (by omega)
        exact ⟨this.1, by omega⟩
  obtain ⟨h1, h2⟩ := hI.srcs s ds hs
  exact gen s x l hw ds h1 h2 hlt

theorem PinnedDone.lower (hd : PinnedDone n S O src sel k h0 P0 h P) (hH : HierB n (fun x => x) S.R O.R infWeight)
    (hsel : SelOk n O sel k) {j d : Nat} (hj : j < k) (hr : Reach S O src (fn sel j) d) (hlt : d < infWeight) :
    fn h.dist (fn sel j) ≤ d := by
  obtain ⟨s, ds, l, hs, hw, rfl⟩ := hr
  obtain ⟨p, l1, l2, h1, h2, h3⟩ := hH.updown hw (by omega)
  obtain ⟨h4, h5⟩ := hd.upper hs h1 (by omega)
  have gen : ∀ x p l, RWalk O.R x p l → P0 p = true → ∀ j, j < k → fn sel j = x → fn h.dist x ≤ fn h0.dist p + l := by
    intro x p l hw
    induction hw with
    | nil x =>
      intro hP j hj hx
      have := (hd.sweep.swept j hj).le_up (by rw [hx]; exact hP)
      rw [hx] at this; omega
    | @cons x y z w l ha _ ih =>
      intro hP j hj hx
      obtain ⟨j', hj', hy⟩ := hsel.closed j y w hj (by rw [hx]; exact ha)
      have h1 := ih hP j' hj' hy
      have h2 := (hd.sweep.swept j hj).mono y w (by rw [hx]; exact ha)
      rw [hx] at h2; omega
  have := gen _ p l2 h2 h4 j hj rfl
  omega

/-- Labels of the upward search are realised. -/
theorem PinnedDone.reach0 (hd : PinnedDone n S O src sel k h0 P0 h P) (hS : UpSide n S) (hn : n ≤ invalidId)
    {x : Nat} (hx : P0 x = true) : Reach S O src x (fn h0.dist x) := by
  obtain ⟨T, hI⟩ := hd.search
  have gen : ∀ N x, x < N → P0 x = true → Reach S O src x (fn h0.dist x) := by
    intro N
    induction N with
    | zero => intro x hx; omega
    | succ N ih =>
      intro x hxN hx
      rcases hI.why x hx with ⟨_, h2⟩ | ⟨p, a, w, _, _, h3, h4, _, h6⟩
      · exact ⟨x, _, 0, h2, RWalk.nil x, rfl⟩
      · have := (hS.arc h3).1
        rw [h6]
        exact (ih p (by omega) h4).step (Or.inl ⟨a, h3⟩)
  exact gen (x + 1) x (by omega) hx

theorem PinnedDone.reach (hd : PinnedDone n S O src sel k h0 P0 h P) (hS : UpSide n S) (hO : UpSide n O) (hn : n ≤ invalidId)
    (hsel : SelOk n O sel k) {j : Nat} (hj : j < k) (hlt : fn h.dist (fn sel j) < infWeight) :
    Reach S O src (fn sel j) (fn h.dist (fn sel j)) := by
  have gen : ∀ N j, j < k → n - fn sel j < N → fn h.dist (fn sel j) < infWeight →
      Reach S O src (fn sel j) (fn h.dist (fn sel j)) := by
    intro N
    induction N with
    | zero => intro j _ h; omega
    | succ N ih =>
      intro j hj hN hlt
      cases hd.sweep.swept j hj with
      | up hP hP0 hd' hlt hm =>
        rw [hd']; exact hd.reach0 hS hn hP0
      | down hP a y w hA ha hd' hlt hlt0 hm =>
        obtain ⟨j', hj', hy⟩ := hsel.closed j y w hj ⟨a, hA⟩
        obtain ⟨h1, h2, _⟩ := hO.arc hA
        rw [hd']
        have := ih j' hj' (by rw [hy]; omega) (by rw [hy]; omega)
        rw [hy] at this
        exact this.step (Or.inr ⟨a, hA⟩)
      | inf hP hP0 hd' ha hm => omega
  exact gen (n - fn sel j + 1) j hj (by omega) hlt

/-- Following the predecessors of a node whose upward label is optimal. -/
theorem PinnedDone.chain (hd : PinnedDone n S O src sel k h0 P0 h P) (hS : UpSide n S) (hO : UpSide n O) (hn : n ≤ invalidId)
    (hsel : SelOk n O sel k) : ∀ fuel u, u < fuel → P0 u = true → (∀ d, Reach S O src u d → fn h0.dist u ≤ d) →
    ∃ arcs s d l, ChHalf.chain h fuel u = some (arcs, s) ∧ (s, d) ∈ src ∧ s < n ∧
      RWalk (UR (fun x => x) 0 S.R O.R) s u l ∧ fn h0.dist u = d + l
  | 0, u, hu, _, _ => absurd hu (Nat.not_lt_zero u)
  | fuel + 1, u, hu, hP0, htight => by
    obtain ⟨T, hI⟩ := hd.search
    obtain ⟨hun, hui⟩ := hI.small u hP0
    -- the flag of u is still set
    have hPu : P u = true := by
      by_cases hsw : ∃ j, j < k ∧ fn sel j = u
      · obtain ⟨j, hj, rfl⟩ := hsw
        have hc := hd.reach hS hO hn hsel hj
        cases hd.sweep.swept j hj with
        | up hP _ _ _ _ => exact hP
        | down hP a y w hA ha hd' hlt hlt0 hm =>
          have h1 := hlt0 hP0
          have h2 := htight _ (hc hlt)
          omega
        | inf hP hP0' _ _ _ => rw [hP0] at hP0'; cases hP0'
      · rw [(hd.sweep.rest u (fun j hj he => hsw ⟨j, hj, he⟩)).1]; exact hP0
    have hup : u < h.predNode.length := by rw [hd.sweep.plen, hI.plen]; exact hun
    have hua : u < h.predArc.length := by rw [hd.sweep.alen]; exact hun
    unfold ChHalf.chain
    have hpn : rd h.predNode u = some (fn h0.predNode u) := by rw [hd.sweep.plen]; exact rd_fn (by rw [hI.plen]; exact hun)
    simp only [hpn, Option.bind_eq_bind, Option.bind_some]
    rcases hI.why u hP0 with ⟨h1, h2⟩ | ⟨p, a, w, h1, h2, h3, h4, h5, h6⟩
    · exact ⟨[], u, _, 0, by simp [h1], h2, hun, RWalk.nil u, rfl⟩
    · obtain ⟨k1, k2, k3⟩ := hS.arc h3
      obtain ⟨arcs, s, d, l, e, q1, q2, q3, q4⟩ := hd.chain hS hO hn hsel fuel p (by omega) h4 (by
        intro d hr
        have := htight _ (hr.step (Or.inl ⟨a, h3⟩))
        omega)
      have hpi : p ≠ invalidId := by omega
      refine ⟨fn h.predArc u :: arcs, s, d, l + w, ?_, q1, q2, q3.snoc ⟨Or.inl ⟨a, h3⟩, Nat.zero_le _, Nat.zero_le _⟩, by omega⟩
      simp only [h1, hpi, if_false, hd.sweep.flags.isSet hun, hPu, check_true, Option.bind_some, k1, decide_true, rd_fn hua, e]

/-- Walking up from a selected node to the top of its path. -/
theorem PinnedDone.climb (hd : PinnedDone n S O src sel k h0 P0 h P) (hO : UpSide n O)
    (hsel : SelOk n O sel k) : ∀ fuel j, j < k → n < fuel + fn sel j → fn h.dist (fn sel j) < infWeight →
    ∃ i l, i < k ∧ ChHalf.climb O h fuel (fn sel j) = some (fn sel i) ∧ P (fn sel i) = true ∧ P0 (fn sel i) = true ∧
      fn h.dist (fn sel i) = fn h0.dist (fn sel i) ∧ RWalk (UR (fun x => x) 0 S.R O.R) (fn sel i) (fn sel j) l ∧
      fn h.dist (fn sel j) = fn h.dist (fn sel i) + l
  | 0, j, hj, hf, _ => by have := hsel.lt j hj; omega
  | fuel + 1, j, hj, hf, hlt => by
    have hxn := hsel.lt j hj
    have hxa : fn sel j < h.predArc.length := by rw [hd.sweep.alen]; exact hxn
    unfold ChHalf.climb
    simp only [hd.sweep.flags.isSet hxn, Option.bind_eq_bind, Option.bind_some]
    cases hd.sweep.swept j hj with
    | up hP hP0 hd' hlt hm =>
      exact ⟨j, 0, hj, by simp [hP], hP, hP0, hd', RWalk.nil _, rfl⟩
    | down hP a y w hA ha hd' hlt hlt0 hm =>
      obtain ⟨j', hj', hy⟩ := hsel.closed j y w hj ⟨a, hA⟩
      obtain ⟨h1, h2, _⟩ := hO.arc hA
      obtain ⟨i, l, g1, g2, g3, g4, g5, g6, g7⟩ := hd.climb hO hsel fuel j' hj' (by rw [hy]; omega) (by rw [hy]; omega)
      rw [hy] at g2 g6 g7
      refine ⟨i, l + w, g1, ?_, g3, g4, g5, g6.snoc ⟨Or.inr ⟨a, hA⟩, Nat.zero_le _, Nat.zero_le _⟩, by omega⟩
      simp only [hP, Bool.false_eq_true, if_false, rd_fn hxa, ha, show rd O.head a = some y from hA.2.1, Option.bind_some,
        decide_eq_true h1, check_true, gt_iff_lt, g2]
    | inf hP hP0 hd' ha hm => omega

/-- The answers for a selected node. -/
theorem PinnedDone.answer (hd : PinnedDone n S O src sel k h0 P0 h P) (hS : UpSide n S) (hO : UpSide n O) (hn : n ≤ invalidId)
    (hH : HierB n (fun x => x) S.R O.R infWeight) (hsel : SelOk n O sel k) {order : List Nat} (hol : order.length = n) {j : Nat} (hj : j < k) :
    ∃ v u, rd h.dist (fn sel j) = some v ∧ ChHalf.usedSource O order h (fn sel j) = some u ∧
      ((v = infWeight ∧ u = invalidId ∧ ∀ d, Reach S O src (fn sel j) d → infWeight ≤ d) ∨
       (v < infWeight ∧ (∀ d, Reach S O src (fn sel j) d → v ≤ d) ∧
        ∃ s ds l, rd order s = some u ∧ (s, ds) ∈ src ∧ RWalk (UR (fun x => x) 0 S.R O.R) s (fn sel j) l ∧ v = ds + l)) := by
  have hxn := hsel.lt j hj
  have hxa : fn sel j < h.predArc.length := by rw [hd.sweep.alen]; exact hxn
  have hxd : fn sel j < h.dist.length := by rw [hd.sweep.dlen]; exact hxn
  have hlow : ∀ d, Reach S O src (fn sel j) d → d < infWeight → fn h.dist (fn sel j) ≤ d :=
    fun d hr hlt => hd.lower hH hsel hj hr hlt
  have hle := (hd.sweep.swept j hj).le_inf
  by_cases hlt : fn h.dist (fn sel j) < infWeight
  · obtain ⟨i, l, g1, g2, g3, g4, g5, g6, g7⟩ := hd.climb hO hsel (h.dist.length + 1) j hj (by rw [hd.sweep.dlen]; omega) hlt
    have htight : ∀ d, Reach S O src (fn sel i) d → fn h0.dist (fn sel i) ≤ d := by
      intro d hr
      rw [← g5]
      by_cases hdi : d < infWeight
      · exact hd.lower hH hsel g1 hr hdi
      · have := (hd.sweep.swept i g1).le_inf
        omega
    obtain ⟨arcs, s, ds, l', e, q1, q2, q3, q4⟩ := hd.chain hS hO hn hsel (h.dist.length + 1) (fn sel i)
      (by rw [hd.sweep.dlen]; have := hsel.lt i g1; omega) g4 htight
    have hso : s < order.length := by omega
    refine ⟨_, fn order s, rd_fn hxd, ?_, Or.inr ⟨hlt, ?_, s, ds, l' + l, rd_fn hso, q1, q3.append g6, by omega⟩⟩
    · unfold ChHalf.usedSource
      have hcond : (!P (fn sel j) && fn h.predArc (fn sel j) == invalidId) = false := by
        cases hd.sweep.swept j hj with
        | up hP _ _ _ _ => simp [hP]
        | down hP a y w hA ha hd' hlt hlt0 hm =>
          have h1 := arc_lt' hO hA
          have h2 := hO.ok.size
          have : fn h.predArc (fn sel j) ≠ invalidId := by omega
          simp [this]
        | inf _ _ hd' _ _ => omega
      simp only [hd.sweep.flags.isSet hxn, rd_fn hxa, Option.bind_eq_bind, Option.bind_some, hcond, Bool.false_eq_true,
        if_false, g2, e, rd_fn hso]
    · intro d hr
      by_cases hdi : d < infWeight
      · exact hlow d hr hdi
      · omega
  · have hinf : fn h.dist (fn sel j) = infWeight := by omega
    refine ⟨_, invalidId, rd_fn hxd, ?_, Or.inl ⟨hinf, rfl, ?_⟩⟩
    · unfold ChHalf.usedSource
      cases hd.sweep.swept j hj with
      | up _ _ h1 h2 _ => omega
      | down _ _ _ _ _ _ _ h1 _ _ => omega
      | inf hP hP0 hd' ha hm =>
        simp [hd.sweep.flags.isSet hxn, rd_fn hxa, hP, ha]
    · intro d hr
      by_contra hc
      have := hlow d hr (by omega)
      omega

end Done
end RK
