import Verif.Proof.ChRun
/-! Helper lemmas: pinned targets. -/
namespace RK
open Spec

variable {n : Nat}

theorem UR.swap {F B : ArcR} {ord : Nat → Nat} {r x y l : Nat} (h : RWalk (UR ord r F B) x y l) :
    RWalk (UR ord r B F) y x l :=
  (h.reverse).mono fun _ _ _ ha => ⟨ha.1.symm, ha.2.2, ha.2.1⟩

theorem HierB.swap {ord : Nat → Nat} {F B : ArcR} {M : Nat} (h : HierB n ord F B M) : HierB n ord B F M where
  fUp := h.bUp
  bUp := h.fUp
  inj := h.inj
  tri := by
    intro z x y w1 w2 hx hy hne hM
    obtain ⟨l, h1, h2⟩ := h.tri z y x w2 w1 hy hx (fun e => hne e.symm) (by omega)
    exact ⟨l, by omega, UR.swap h2⟩

/-! ### Selecting the nodes above the targets -/

/-- The first `k` entries of `sel` are decreasing and closed under the arcs of `O`. -/
structure SelOk (n : Nat) (O : ChSide) (sel : List Nat) (k : Nat) : Prop where
  len : sel.length = n
  k_le : k ≤ n
  lt : ∀ i, i < k → fn sel i < n
  desc : ∀ i j, i < j → j < k → fn sel j < fn sel i
  closed : ∀ i y w, i < k → O.R (fn sel i) y w → ∃ j, j < k ∧ fn sel j = y

/-- State of the selection loop. -/
structure PinInv (n : Nat) (O : ChSide) (ts : List Nat) (q : MinIDQueue) (sel : List Nat) (k : Nat)
    (m : Nat → Option Nat) : Prop where
  queue : MinIDQueue.Rep q n m
  len : sel.length = n
  key : ∀ x v, m x = some v → v = x ∧ x < n
  lt : ∀ i, i < k → fn sel i < n
  incr : ∀ i j, i < j → j < k → fn sel i < fn sel j
  above : ∀ i x, i < k → m x ≠ none → fn sel i < x
  closed : ∀ i y w, i < k → O.R (fn sel i) y w → m y ≠ none ∨ ∃ j, j < k ∧ fn sel j = y
  tgt : ∀ t ∈ ts, m t ≠ none ∨ ∃ j, j < k ∧ fn sel j = t

theorem PinInv.idx_le {O : ChSide} {ts sel : List Nat} {q : MinIDQueue} {k : Nat} {m : Nat → Option Nat}
    (h : PinInv n O ts q sel k m) : ∀ i, i < k → i ≤ fn sel i
  | 0, _ => Nat.zero_le _
  | i + 1, hi => by
    have := h.idx_le i (by omega)
    have := h.incr i (i + 1) (by omega) hi
    omega

theorem PinInv.k_le {O : ChSide} {ts sel : List Nat} {q : MinIDQueue} {k : Nat} {m : Nat → Option Nat}
    (h : PinInv n O ts q sel k m) : k ≤ n := by
  by_contra hc
  have := h.idx_le (k - 1) (by omega)
  have := h.lt (k - 1) (by omega)
  omega

theorem pinArcs_spec {O : ChSide} (hO : UpSide n O) {x b e : Nat} (hb : O.firstOut[x]? = some b)
    (he : O.firstOut[x + 1]? = some e) (hbe : b ≤ e) {q : MinIDQueue} {m : Nat → Option Nat}
    (hq : MinIDQueue.Rep q n m) (hk : ∀ z v, m z = some v → v = z ∧ z < n) :
    ∃ q' m', forRange b e q (ChHalf.pinArc O x) = some q' ∧ MinIDQueue.Rep q' n m' ∧
      (∀ z v, m' z = some v → v = z ∧ z < n) ∧ (∀ z, m z ≠ none → m' z ≠ none) ∧
      (∀ z, m' z ≠ none → m z ≠ none ∨ x < z) ∧ (∀ y w, O.R x y w → m' y ≠ none) := by
  obtain ⟨q', er, m', h1, h2, h3, h4, h5⟩ := forRange_inv (lo := b) (hi := e) (s := q) (f := ChHalf.pinArc O x)
    (fun i q' => ∃ m', MinIDQueue.Rep q' n m' ∧ (∀ z v, m' z = some v → v = z ∧ z < n) ∧ (∀ z, m z ≠ none → m' z ≠ none) ∧
      (∀ z, m' z ≠ none → m z ≠ none ∨ x < z) ∧ (∀ a y w, a < i → O.Arc a x y w → m' y ≠ none))
    hbe ⟨m, hq, hk, fun _ h => h, fun _ h => Or.inl h, fun a y w ha hA => by
      obtain ⟨b', e', hb', _, h1, _⟩ := hA.1
      have : some b = some b' := hb.symm.trans hb'
      cases this; omega⟩
    (by
      rintro i q1 hi1 hi2 ⟨m1, g1, g2, g3, g4, g5⟩
      obtain ⟨y, w, hy, hw, hA⟩ := hO.rd_arc (x := x) (a := i) ⟨b, e, hb, he, hi1, hi2⟩
      obtain ⟨hxy, hyn, _⟩ := hO.arc hA
      have hsame : ∀ m2 : Nat → Option Nat, (∀ z, m1 z ≠ none → m2 z ≠ none) → m2 y ≠ none →
          ∀ a y' w', a < i + 1 → O.Arc a x y' w' → m2 y' ≠ none := by
        intro m2 h1 h2 a y' w' ha hA'
        by_cases hai : a = i
        · subst hai
          have : some y = some y' := hA.2.1.symm.trans hA'.2.1
          cases this; exact h2
        · exact h1 _ (g5 a y' w' (by omega) hA')
      unfold ChHalf.pinArc
      simp only [hy, hxy, decide_true, check_true, Option.bind_eq_bind, Option.bind_some, g1.containsId hyn]
      cases hm : m1 y with
      | some v =>
        exact ⟨q1, by simp, m1, g1, g2, g3, g4, hsame m1 (fun _ h => h) (by rw [hm]; simp)⟩
      | none =>
        obtain ⟨q2, e2, hq2⟩ := g1.push (p := ⟨y, y⟩) hyn hm
        refine ⟨q2, by simp [e2], _, hq2, ?_, ?_, ?_, hsame _ ?_ (by simp)⟩
        · intro z v hz
          by_cases hzy : z = y
          · subst hzy; simp only [if_true, Option.some.injEq] at hz; exact ⟨hz.symm, hyn⟩
          · simp only [hzy, if_false] at hz; exact g2 z v hz
        · intro z hz
          split
          · simp
          · exact g3 z hz
        · intro z hz
          by_cases hzy : z = y
          · subst hzy; exact Or.inr hxy
          · simp only [hzy, if_false] at hz; exact g4 z hz
        · intro z hz
          split
          · simp
          · exact hz)
  refine ⟨q', m', er, h1, h2, h3, h4, ?_⟩
  rintro y w ⟨a, hA⟩
  obtain ⟨b', e', hb', he', k1, k2⟩ := hA.1
  have : some e = some e' := he.symm.trans he'
  cases this
  exact h5 a y w k2 hA

theorem pinLoop_spec {O : ChSide} (hO : UpSide n O) {ts : List Nat} : ∀ fuel {q : MinIDQueue} {sel : List Nat} {k : Nat}
    {m : Nat → Option Nat}, PinInv n O ts q sel k m → n + 1 ≤ fuel + k →
    ∃ q' sel' k', ChHalf.pinLoop O fuel q sel k = some (q', sel', k') ∧ PinInv n O ts q' sel' k' (fun _ => none)
  | 0, q, sel, k, m, h, hf => by have := h.k_le; omega
  | fuel + 1, q, sel, k, m, h, hf => by
    unfold ChHalf.pinLoop
    by_cases he : q.empty = true
    · have hm : m = fun _ => none := funext (h.queue.empty_iff.1 he)
      subst hm
      exact ⟨q, sel, k, by simp [he], h⟩
    · simp only [he, Bool.false_eq_true, if_false]
      have hne : ∃ x, m x ≠ none := by
        by_contra hc
        exact he (h.queue.empty_iff.2 (fun id => by by_contra h1; exact hc ⟨id, h1⟩))
      obtain ⟨q1, p, e1, hp1, hp2, hq1⟩ := h.queue.pop hne
      obtain ⟨hpk, hpn⟩ := h.key p.id p.key hp1
      have hpin : m p.id ≠ none := by rw [hp1]; simp
      have hkn : k < n := by
        rcases Nat.eq_zero_or_pos k with h0 | h0
        · omega
        · have := h.idx_le (k - 1) (by omega)
          have := h.above (k - 1) p.id (by omega) hpin
          omega
      have hksel : k < sel.length := by rw [h.len]; exact hkn
      obtain ⟨b, e, hb, he', hbe, hel⟩ := hO.ok.csr.range hpn
      have hmin : ∀ z, m z ≠ none → p.id ≤ z := by
        intro z hz
        cases hmz : m z with
        | none => exact absurd hmz hz
        | some v =>
          have h1 := hp2 z v hmz
          have h2 := (h.key z v hmz).1
          omega
      obtain ⟨q2, m2, e2, g1, g2, g3, g4, g5⟩ := pinArcs_spec hO hb he' hbe hq1 (by
        intro z v hz
        by_cases hzp : z = p.id
        · simp [hzp] at hz
        · simp only [hzp, if_false] at hz; exact h.key z v hz)
      have hsel : ∀ i, fn (sel.set k p.id) i = if i = k then p.id else fn sel i := fun i => fn_set hksel
      -- membership is kept
      have keep : ∀ z, (m z ≠ none ∨ ∃ j, j < k ∧ fn sel j = z) →
          m2 z ≠ none ∨ ∃ j, j < k + 1 ∧ fn (sel.set k p.id) j = z := by
        intro z hz
        rcases hz with hz | ⟨j, hj, hz⟩
        · by_cases hzp : z = p.id
          · exact Or.inr ⟨k, by omega, by rw [hsel]; simp [hzp]⟩
          · exact Or.inl (g3 z (by simp only [hzp, if_false]; exact hz))
        · refine Or.inr ⟨j, by omega, ?_⟩
          rw [hsel, if_neg (by omega)]; exact hz
      have hI : PinInv n O ts q2 (sel.set k p.id) (k + 1) m2 := by
        refine ⟨g1, by simp [h.len], g2, ?_, ?_, ?_, ?_, fun t ht => keep t (h.tgt t ht)⟩
        · intro i hi
          rw [hsel]; split
          · exact hpn
          · exact h.lt i (by omega)
        · intro i j hij hj
          rw [hsel, hsel, if_neg (by omega)]
          split
          · exact h.above i p.id (by omega) hpin
          · exact h.incr i j hij (by omega)
        · intro i x hi hx
          have hpx : p.id < x := by
            rcases g4 x hx with hx | hx
            · by_cases hxp : x = p.id
              · simp [hxp] at hx
              · simp only [hxp, if_false] at hx
                have := hmin x hx
                omega
            · exact hx
          rw [hsel]; split
          · exact hpx
          · have := h.above i p.id (by omega) hpin
            omega
        · intro i y w hi hR
          rw [hsel] at hR
          by_cases hik : i = k
          · simp only [hik, if_true] at hR
            exact Or.inl (g5 y w hR)
          · simp only [hik, if_false] at hR
            exact keep y (h.closed i y w (by omega) hR)
      obtain ⟨q', sel', k', e3, h3⟩ := pinLoop_spec hO fuel hI (by omega)
      refine ⟨q', sel', k', ?_, h3⟩
      simp only [e1, wr_lt hksel, show rd O.firstOut p.id = some b from hb, show rd O.firstOut (p.id + 1) = some e from he',
        e2, Option.bind_eq_bind, Option.bind_some]
      exact e3

theorem reverseRange_fn {sel : List Nat} {k i : Nat} (hk : k ≤ sel.length) (hi : i < k) :
    fn (reverseRange sel 0 k) i = fn sel (k - 1 - i) := by
  unfold reverseRange fn
  congr 1
  simp only [List.take_zero, List.nil_append, List.drop_zero, rd]
  rw [List.getElem?_append_left (by simp; omega), List.getElem?_reverse (by simp; omega), List.getElem?_take]
  rw [List.length_take, Nat.min_eq_left hk, if_pos (by omega)]

theorem reverseRange_length {sel : List Nat} {k : Nat} : (reverseRange sel 0 k).length = sel.length := by
  unfold reverseRange
  simp
  omega

theorem pin_spec {O : ChSide} (hO : UpSide n O) {rank ts : List Nat} (hrl : rank.length = n) {h : ChHalf}
    (hq : MinIDQueue.Rep h.queue n (fun _ => none)) (hd : h.dist.length = n) (hp : h.predNode.length = n)
    (hts : ts.length ≤ n) (hlt : ∀ t ∈ ts, t < n) (hr : ∀ x i, rd rank x = some i → i < n) :
    ∃ q l sel k, ChHalf.pin O rank h ts = some ({ h with queue := q, predNode := l, dist := sel }, k) ∧
      MinIDQueue.Rep q n (fun _ => none) ∧ l.length = n ∧ SelOk n O sel k ∧
      (∀ i t, rd ts i = some t → ∃ r j, rd rank t = some r ∧ rd l i = some r ∧ j < k ∧ fn sel j = r) := by
  obtain ⟨⟨l, q⟩, e1, hl, m, hqm, hkey, hall⟩ := forRange_inv (lo := 0) (hi := ts.length) (s := (h.predNode, h.queue))
    (f := ChHalf.pinNode rank ts)
    (fun i s => s.1.length = n ∧ ∃ m, MinIDQueue.Rep s.2 n m ∧ (∀ x v, m x = some v → v = x ∧ x < n) ∧
      ∀ j t, j < i → rd ts j = some t → ∃ r, rd rank t = some r ∧ fn s.1 j = r ∧ m r ≠ none)
    (Nat.zero_le _) ⟨hp, _, hq, by simp, fun j t hj => absurd hj (Nat.not_lt_zero j)⟩
    (by
      rintro i ⟨l, q⟩ _ hi ⟨hl, m, hqm, hkey, hall⟩
      dsimp only at hl hqm hall
      obtain ⟨t, ht⟩ := rd_isSome hi
      have htn := hlt t (List.mem_of_getElem? ht)
      obtain ⟨r, hr1⟩ := rd_isSome (v := rank) (i := t) (by omega)
      have hrn := hr t r hr1
      have hil : i < l.length := by omega
      unfold ChHalf.pinNode
      simp only [ht, hr1, wr_lt hil, hqm.containsId hrn, Option.bind_eq_bind, Option.bind_some]
      have hset : ∀ j, fn (l.set i r) j = if j = i then r else fn l j := fun j => fn_set hil
      have fin : ∀ m2 : Nat → Option Nat, (∀ z, m z ≠ none → m2 z ≠ none) → m2 r ≠ none →
          ∀ j t, j < i + 1 → rd ts j = some t → ∃ r', rd rank t = some r' ∧ fn (l.set i r) j = r' ∧ m2 r' ≠ none := by
        intro m2 h1 h2 j t' hj ht'
        by_cases hji : j = i
        · subst hji
          have : some t = some t' := ht.symm.trans ht'
          cases this
          exact ⟨r, hr1, by rw [hset]; simp, h2⟩
        · obtain ⟨r', k1, k2, k3⟩ := hall j t' (by omega) ht'
          exact ⟨r', k1, by rw [hset]; simp [hji, k2], h1 r' k3⟩
      cases hm : m r with
      | some v =>
        exact ⟨(l.set i r, q), by simp, by simp [hl], m, hqm, hkey, fin m (fun _ h => h) (by rw [hm]; simp)⟩
      | none =>
        obtain ⟨q2, e2, hq2⟩ := hqm.push (p := ⟨r, r⟩) hrn hm
        refine ⟨(l.set i r, q2), by simp [e2], by simp [hl], _, hq2, ?_, fin _ ?_ (by simp)⟩
        · intro z v hz
          by_cases hzy : z = r
          · subst hzy; simp only [if_true, Option.some.injEq] at hz; exact ⟨hz.symm, hrn⟩
          · simp only [hzy, if_false] at hz; exact hkey z v hz
        · intro z hz
          split
          · simp
          · exact hz)
  dsimp only at hl hqm hall
  have hI : PinInv n O ((List.range ts.length).map (fn l)) q h.dist 0 m := by
    refine ⟨hqm, hd, hkey, by simp, by simp, by simp, by simp, ?_⟩
    intro t ht
    obtain ⟨j, hj, rfl⟩ := List.mem_map.1 ht
    have hj' := List.mem_range.1 hj
    obtain ⟨t, ht⟩ := rd_isSome hj'
    obtain ⟨r, _, h2, h3⟩ := hall j t hj' ht
    rw [h2]; exact Or.inl h3
  obtain ⟨q', sel, k, e2, h2⟩ := pinLoop_spec hO (rank.length + 1) hI (by omega)
  have hkn := h2.k_le
  refine ⟨q', l, reverseRange sel 0 k, k, ?_, h2.queue, hl, ?_, ?_⟩
  · unfold ChHalf.pin
    simp only [e1, e2, Option.bind_eq_bind, Option.bind_some]
  · have hrf : ∀ i, i < k → fn (reverseRange sel 0 k) i = fn sel (k - 1 - i) :=
      fun i hi => reverseRange_fn (by rw [h2.len]; exact hkn) hi
    refine ⟨by rw [reverseRange_length, h2.len], hkn, ?_, ?_, ?_⟩
    · intro i hi; rw [hrf i hi]; exact h2.lt _ (by omega)
    · intro i j hij hj; rw [hrf i (by omega), hrf j hj]; exact h2.incr _ _ (by omega) (by omega)
    · intro i y w hi hR
      rw [hrf i hi] at hR
      rcases h2.closed (k - 1 - i) y w (by omega) hR with hc | ⟨j, hj, hy⟩
      · exact absurd rfl hc
      · exact ⟨k - 1 - j, by omega, by rw [hrf _ (by omega), ← hy]; congr 1; omega⟩
  · intro i t ht
    have hi := rd_some_lt ht
    obtain ⟨r, h3, h4, _⟩ := hall i t hi ht
    rcases h2.tgt r (List.mem_map.2 ⟨i, List.mem_range.2 hi, h4⟩) with hc | ⟨j, hj, hy⟩
    · exact absurd rfl hc
    · refine ⟨r, k - 1 - j, h3, ?_, by omega, ?_⟩
      · rw [rd_fn (v := l) (by omega), h4]
      · rw [reverseRange_fn (by rw [h2.len]; exact hkn) (by omega), ← hy]; congr 1; omega

end RK
