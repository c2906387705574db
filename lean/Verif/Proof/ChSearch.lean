import Verif.Model.ChQuery
import Verif.Proof.ChOk
import Verif.Proof.IdQueue
import Verif.Proof.TimestampFlags
/-! Helper lemmas: one search direction of a hierarchy query. -/
namespace RK
open Spec

/-- A direction of a hierarchy: adjacency array, arcs lead upwards, weights at most `inf_weight`. -/
structure UpSide (n : Nat) (S : ChSide) : Prop where
  ok : SideOk n S
  up : ∀ x y w, S.R x y w → x < y ∧ y < n
  light : ∀ x y w, S.R x y w → w ≤ infWeight

/-- State of one direction. `P` = pushed, `m` = queue, `T` separates popped labels from queue keys,
`ex` = nodes whose expansion is still in progress, `St` = arcs used for stalling. -/
structure HInv (n : Nat) (S : ChSide) (St : ArcR) (ex : Nat → Prop) (T : Nat) (src : List (Nat × Nat))
    (h : ChHalf) (P : Nat → Bool) (m : Nat → Option Nat) : Prop where
  flags : TimestampFlags.Rep h.pushed n P
  queue : MinIDQueue.Rep h.queue n m
  dlen : h.dist.length = n
  plen : h.predNode.length = n
  alen : h.predArc.length = n
  key : ∀ x k, m x = some k → P x = true ∧ fn h.dist x = k ∧ T ≤ k
  lo : ∀ x, P x = true → m x = none → fn h.dist x ≤ T
  small : ∀ x, P x = true → x < n ∧ fn h.dist x < infWeight
  why : ∀ x, P x = true → (fn h.predNode x = invalidId ∧ (x, fn h.dist x) ∈ src) ∨
    ∃ p a w, fn h.predNode x = p ∧ fn h.predArc x = a ∧ S.Arc a p x w ∧ P p = true ∧ m p = none ∧
      fn h.dist x = fn h.dist p + w
  srcs : ∀ s d, (s, d) ∈ src → P s = true ∧ fn h.dist s ≤ d
  closed : ∀ x, P x = true → m x = none → ¬ ex x →
    (∃ y w, St x y w ∧ P y = true ∧ fn h.dist y + w ≤ fn h.dist x) ∨
    ∀ y w, S.R x y w → fn h.dist x + w < infWeight → P y = true ∧ fn h.dist y ≤ fn h.dist x + w

/-- From `h` to `h'`: labels only improve, nothing was popped. -/
structure HExt (h : ChHalf) (P : Nat → Bool) (m : Nat → Option Nat) (h' : ChHalf) (P' : Nat → Bool)
    (m' : Nat → Option Nat) : Prop where
  push : ∀ x, P x = true → P' x = true ∧ fn h'.dist x ≤ fn h.dist x
  pop : ∀ x, (P x = true ∧ m x = none) → m' x = none ∧ fn h'.dist x = fn h.dist x
  pop' : ∀ x, (P' x = true ∧ m' x = none) → P x = true ∧ m x = none

theorem HExt.refl {h : ChHalf} {P : Nat → Bool} {m : Nat → Option Nat} : HExt h P m h P m :=
  ⟨fun _ hx => ⟨hx, Nat.le_refl _⟩, fun _ hx => ⟨hx.2, rfl⟩, fun _ hx => hx⟩

theorem HExt.trans {h1 h2 h3 : ChHalf} {P1 P2 P3 : Nat → Bool} {m1 m2 m3 : Nat → Option Nat}
    (a : HExt h1 P1 m1 h2 P2 m2) (b : HExt h2 P2 m2 h3 P3 m3) : HExt h1 P1 m1 h3 P3 m3 := by
  refine ⟨fun x hx => ?_, fun x hx => ?_, fun x hx => a.pop' x (b.pop' x hx)⟩
  · obtain ⟨p, q⟩ := a.push x hx
    obtain ⟨p', q'⟩ := b.push x p
    exact ⟨p', Nat.le_trans q' q⟩
  · obtain ⟨p, q⟩ := a.pop x hx
    obtain ⟨p', q'⟩ := b.pop x ⟨(a.push x hx.1).1, p⟩
    exact ⟨p', q'.trans q⟩

variable {n : Nat} {S : ChSide} {St : ArcR} {ex : Nat → Prop} {T : Nat} {src : List (Nat × Nat)}
  {h : ChHalf} {P : Nat → Bool} {m : Nat → Option Nat}

theorem half_new (hn : n ≤ MinIDQueue.maxIds) :
    HInv n S St ex 0 [] (ChHalf.new n) (fun _ => false) (fun _ => none) where
  flags := TimestampFlags.rep_new n
  queue := MinIDQueue.rep_new hn
  dlen := by simp [ChHalf.new]
  plen := by simp [ChHalf.new]
  alen := by simp [ChHalf.new]
  key := by simp
  lo := by simp
  small := by simp
  why := by simp
  srcs := by simp
  closed := by simp

theorem UpSide.arc (hS : UpSide n S) {a x y w : Nat} (ha : S.Arc a x y w) :
    x < y ∧ y < n ∧ w ≤ infWeight :=
  ⟨(hS.up x y w ⟨a, ha⟩).1, (hS.up x y w ⟨a, ha⟩).2, hS.light x y w ⟨a, ha⟩⟩

theorem UpSide.rd_arc (hS : UpSide n S) {x a : Nat} (ha : OutArc S.firstOut x a) :
    ∃ y w, rd S.head a = some y ∧ rd S.weight a = some w ∧ S.Arc a x y w := by
  have hx : x < n := by
    obtain ⟨b, e, _, he, _⟩ := ha
    have := rd_some_lt (v := S.firstOut) he
    have := hS.ok.csr.length
    omega
  obtain ⟨b, e, hb, he, h1, h2⟩ := ha
  obtain ⟨b', e', hb', he', hbe, hel⟩ := hS.ok.csr.range hx
  have : some e = some e' := he.symm.trans he'
  cases this
  have hlt : a < S.head.length := by omega
  have hltw : a < S.weight.length := by rw [hS.ok.weight]; exact hlt
  obtain ⟨y, hy⟩ := rd_isSome hlt
  obtain ⟨w, hw⟩ := rd_isSome hltw
  exact ⟨y, w, hy, hw, ⟨b, e, hb, he, h1, h2⟩, hy, hw⟩

theorem arc_lt' {n : Nat} {S : ChSide} (hS : UpSide n S) {a x y w : Nat} (ha : S.Arc a x y w) : a < S.head.length :=
  rd_some_lt (v := S.head) ha.2.1

theorem infWeight_val : infWeight = 2147483647 := rfl
theorem invalidId_val : invalidId = 4294967295 := rfl
theorem u32_val : u32 = 4294967296 := rfl

/-- State while node `a` with label `T` is being expanded. -/
structure Expanding (n : Nat) (S : ChSide) (St : ArcR) (a T : Nat) (src : List (Nat × Nat))
    (h : ChHalf) (P : Nat → Bool) (m : Nat → Option Nat) : Prop where
  inv : HInv n S St (fun x => x = a) T src h P m
  aP : P a = true
  am : m a = none
  aT : fn h.dist a = T

/-- A node `y` gets the label `T + w` via the arc `arc` from `a`. -/
theorem Expanding.label {a y w arc : Nat} (hE : Expanding n S St a T src h P m) (hS : UpSide n S)
    (hn : n ≤ invalidId) (ha : S.Arc arc a y w) (hd : T + w < infWeight)
    (hy : P y = true → T + w < fn h.dist y) {q : MinIDQueue} {f : TimestampFlags}
    (hq : MinIDQueue.Rep q n (fun id => if id = y then some (T + w) else m id))
    (hf : TimestampFlags.Rep f n (fun j => if j = y then true else P j)) :
    let h' : ChHalf := ⟨f, q, h.dist.set y (T + w), h.predNode.set y a, h.predArc.set y arc⟩
    let P' := fun j => if j = y then true else P j
    let m' := fun id => if id = y then some (T + w) else m id
    Expanding n S St a T src h' P' m' ∧ HExt h P m h' P' m' ∧ P' y = true ∧ fn h'.dist y ≤ T + w := by
  intro h' P' m'
  obtain ⟨hax, hyn, hwl⟩ := hS.arc ha
  have hI := hE.inv
  have hyd : y < h.dist.length := by rw [hI.dlen]; exact hyn
  have hypn : y < h.predNode.length := by rw [hI.plen]; exact hyn
  have hyan : y < h.predArc.length := by rw [hI.alen]; exact hyn
  -- y is not popped
  have hpop : ∀ x, P x = true → m x = none → x ≠ y := by
    rintro x hx hmx rfl
    have := hI.lo x hx hmx
    have := hy hx
    omega
  have hdist : ∀ x, fn h'.dist x = if x = y then T + w else fn h.dist x := fun x => fn_set hyd
  have hpn : ∀ x, fn h'.predNode x = if x = y then a else fn h.predNode x := fun x => fn_set hypn
  have hpa : ∀ x, fn h'.predArc x = if x = y then arc else fn h.predArc x := fun x => fn_set hyan
  have hle : ∀ x, P x = true → P' x = true ∧ fn h'.dist x ≤ fn h.dist x := by
    intro x hx
    rw [hdist]
    by_cases hxy : x = y
    · subst hxy
      have := hy hx
      exact ⟨by simp [P'], by simp; omega⟩
    · exact ⟨by simp [P', hxy, hx], by simp [hxy]⟩
  have hpk : ∀ x, P x = true → m x = none → m' x = none ∧ fn h'.dist x = fn h.dist x := by
    intro x hx hmx
    have := hpop x hx hmx
    rw [hdist]
    exact ⟨by simp [m', this, hmx], by simp [this]⟩
  have hpk' : ∀ x, P' x = true → m' x = none → P x = true ∧ m x = none ∧ x ≠ y := by
    intro x hx hmx
    by_cases hxy : x = y
    · simp [m', hxy] at hmx
    · simp only [P', m', hxy, if_false] at hx hmx
      exact ⟨hx, hmx, hxy⟩
  have hay := hpop a hE.aP hE.am
  refine ⟨⟨?_, (hle a hE.aP).1, (hpk a hE.aP hE.am).1, by rw [(hpk a hE.aP hE.am).2, hE.aT]⟩,
    ⟨hle, fun x hx => hpk x hx.1 hx.2, fun x hx => ⟨(hpk' x hx.1 hx.2).1, (hpk' x hx.1 hx.2).2.1⟩⟩,
    by simp [P'], by rw [hdist]; simp⟩
  refine ⟨hf, hq, by simp [h', hI.dlen], by simp [h', hI.plen], by simp [h', hI.alen], ?_, ?_, ?_, ?_, ?_, ?_⟩
  · intro x k hk
    by_cases hxy : x = y
    · subst hxy
      simp only [m', if_true, Option.some.injEq] at hk
      subst hk
      exact ⟨by simp [P'], by rw [hdist]; simp, by omega⟩
    · simp only [m', hxy, if_false] at hk
      obtain ⟨h1, h2, h3⟩ := hI.key x k hk
      exact ⟨by simp [P', hxy, h1], by rw [hdist]; simp [hxy, h2], h3⟩
  · intro x hx hmx
    obtain ⟨h1, h2, h3⟩ := hpk' x hx hmx
    rw [hdist]; simp only [h3, if_false]
    exact hI.lo x h1 h2
  · intro x hx
    rw [hdist]
    by_cases hxy : x = y
    · subst hxy; exact ⟨hyn, by simp; omega⟩
    · simp only [P', hxy, if_false] at hx ⊢
      exact hI.small x hx
  · intro x hx
    by_cases hxy : x = y
    · subst hxy
      right
      refine ⟨a, arc, w, by rw [hpn]; simp, by rw [hpa]; simp, ha, (hle a hE.aP).1, (hpk a hE.aP hE.am).1, ?_⟩
      rw [hdist, hdist]; simp [hay, hE.aT]
    · simp only [P', hxy, if_false] at hx
      rcases hI.why x hx with ⟨h1, h2⟩ | ⟨p, a', w', h1, h2, h3, h4, h5, h6⟩
      · left
        rw [hpn, hdist]; simp only [hxy, if_false]; exact ⟨h1, h2⟩
      · right
        refine ⟨p, a', w', by rw [hpn]; simp [hxy, h1], by rw [hpa]; simp [hxy, h2], h3, (hle p h4).1, (hpk p h4 h5).1, ?_⟩
        rw [(hpk p h4 h5).2, hdist]; simp [hxy, h6]
  · intro s d hsd
    obtain ⟨h1, h2⟩ := hI.srcs s d hsd
    exact ⟨(hle s h1).1, Nat.le_trans (hle s h1).2 h2⟩
  · intro x hx hmx hxa
    obtain ⟨h1, h2, h3⟩ := hpk' x hx hmx
    have hdx := (hpk x h1 h2).2
    rw [hdx]
    rcases hI.closed x h1 h2 hxa with ⟨z, w', h4, h5, h6⟩ | h4
    · exact Or.inl ⟨z, w', h4, (hle z h5).1, Nat.le_trans (Nat.add_le_add_right (hle z h5).2 _) h6⟩
    · right
      intro z w' hz hlt
      obtain ⟨h5, h6⟩ := h4 z w' hz hlt
      exact ⟨(hle z h5).1, Nat.le_trans (hle z h5).2 h6⟩

theorem Expanding.relaxArc {a y w arc : Nat} (hE : Expanding n S St a T src h P m) (hS : UpSide n S)
    (hn : n ≤ invalidId) (ha : S.Arc arc a y w) :
    ∃ h' P' m', ChHalf.relaxArc S a T h arc = some h' ∧ Expanding n S St a T src h' P' m' ∧
      HExt h P m h' P' m' ∧ (T + w < infWeight → P' y = true ∧ fn h'.dist y ≤ T + w) := by
  obtain ⟨hax, hyn, hwl⟩ := hS.arc ha
  have hI := hE.inv
  have hT := (hI.small a hE.aP).2
  rw [hE.aT] at hT
  have hsum : add32 T w = T + w := by
    unfold add32; rw [infWeight_val] at *; rw [u32_val]; omega
  have hyd : y < h.dist.length := by rw [hI.dlen]; exact hyn
  have hypn : y < h.predNode.length := by rw [hI.plen]; exact hyn
  have hyan : y < h.predArc.length := by rw [hI.alen]; exact hyn
  have hh : rd S.head arc = some y := ha.2.1
  have hw : rd S.weight arc = some w := ha.2.2
  unfold ChHalf.relaxArc
  simp only [hh, hw, hsum, hI.flags.isSet hyn, Option.bind_eq_bind, Option.bind_some]
  by_cases hPy : P y = true
  · simp only [hPy, if_true, rd_fn hyd, Option.bind_some]
    by_cases hlt : T + w < fn h.dist y
    · have hmy : ∃ k, m y = some k := by
        cases hm : m y with
        | some k => exact ⟨k, rfl⟩
        | none => have := hI.lo y hPy hm; omega
      obtain ⟨k, hk⟩ := hmy
      obtain ⟨_, hk2, hk3⟩ := hI.key y k hk
      obtain ⟨q, eq, hq⟩ := hI.queue.decreaseKey (p := ⟨y, T + w⟩) hk
      have hmin : min k (T + w) = T + w := by rw [← hk2]; omega
      simp only [hmin] at hq
      have hf : TimestampFlags.Rep h.pushed n (fun j => if j = y then true else P j) := by
        have : (fun j => if j = y then true else P j) = P := by
          funext j; by_cases hj : j = y <;> simp [hj, hPy]
        rw [this]; exact hI.flags
      have hdinf : T + w < infWeight := Nat.lt_trans hlt (hI.small y hPy).2
      obtain ⟨r1, r2, r3, r4⟩ := hE.label hS hn ha hdinf (fun _ => hlt) hq hf
      exact ⟨_, _, _, by simp only [hlt, if_true, eq, Option.bind_some, wr_lt hyd, wr_lt hypn, wr_lt hyan], r1, r2, fun _ => ⟨r3, r4⟩⟩
    · exact ⟨h, P, m, by simp only [hlt, if_false], hE, HExt.refl, fun _ => ⟨hPy, by omega⟩⟩
  · have hPy' : P y = false := by simpa using hPy
    simp only [hPy', Bool.false_eq_true, if_false]
    by_cases hdinf : T + w < infWeight
    · have hmy : m y = none := by
        cases hm : m y with
        | none => rfl
        | some k => have := (hI.key y k hm).1; rw [hPy'] at this; cases this
      obtain ⟨q, eq, hq⟩ := hI.queue.push (p := ⟨y, T + w⟩) hyn hmy
      obtain ⟨f, ef, hf⟩ := hI.flags.set hyn
      obtain ⟨r1, r2, r3, r4⟩ := hE.label hS hn ha hdinf (fun hp => absurd hp hPy) hq hf
      exact ⟨_, _, _, by simp only [hdinf, if_true, eq, ef, Option.bind_some, wr_lt hyd, wr_lt hypn, wr_lt hyan], r1, r2, fun _ => ⟨r3, r4⟩⟩
    · exact ⟨h, P, m, by simp only [hdinf, if_false], hE, HExt.refl, fun hh => absurd hh hdinf⟩

theorem Expanding.expand {a : Nat} (hE : Expanding n S St a T src h P m) (hS : UpSide n S) (hn : n ≤ invalidId) :
    ∃ h' P' m', ChHalf.expand S h a T = some h' ∧ HInv n S St (fun _ => False) T src h' P' m' ∧
      HExt h P m h' P' m' := by
  have han : a < n := (hE.inv.small a hE.aP).1
  obtain ⟨b, e, hb, he, hbe, hel⟩ := hS.ok.csr.range han
  obtain ⟨h', er, P', m', hE', hx', hall⟩ := forRange_inv (lo := b) (hi := e) (s := h)
    (f := ChHalf.relaxArc S a T)
    (fun i h' => ∃ P' m', Expanding n S St a T src h' P' m' ∧ HExt h P m h' P' m' ∧
      ∀ j y w, b ≤ j → j < i → S.Arc j a y w → T + w < infWeight → P' y = true ∧ fn h'.dist y ≤ T + w)
    hbe ⟨P, m, hE, HExt.refl, fun j y w h1 h2 => by omega⟩
    (by
      rintro i h1 hi1 hi2 ⟨P1, m1, hE1, hx1, hall⟩
      obtain ⟨y, w, hy, hw, ha⟩ := hS.rd_arc (x := a) (a := i) ⟨b, e, hb, he, hi1, hi2⟩
      obtain ⟨h2, P2, m2, e2, hE2, hx2, hl⟩ := hE1.relaxArc hS hn ha
      refine ⟨h2, e2, P2, m2, hE2, hx1.trans hx2, ?_⟩
      intro j y' w' hj1 hj2 ha' hlt
      by_cases hji : j = i
      · subst hji
        have e1 : some y = some y' := ha.2.1.symm.trans ha'.2.1
        have e2 : some w = some w' := ha.2.2.symm.trans ha'.2.2
        cases e1; cases e2
        exact hl hlt
      · obtain ⟨p1, p2⟩ := hall j y' w' hj1 (by omega) ha' hlt
        obtain ⟨p3, p4⟩ := hx2.push y' p1
        exact ⟨p3, Nat.le_trans p4 p2⟩)
  refine ⟨h', P', m', ?_, ?_, hx'⟩
  · unfold ChHalf.expand
    rw [show rd S.firstOut a = some b from hb, show rd S.firstOut (a + 1) = some e from he]
    exact er
  · refine { hE'.inv with closed := ?_ }
    intro x hx hm _
    by_cases hxa : x = a
    · subst hxa
      right
      rw [hE'.aT]
      rintro y w ⟨j, hj⟩ hlt
      obtain ⟨b', e', hb', he', h1, h2⟩ := hj.1
      have e1 : some b = some b' := hb.symm.trans hb'
      have e2 : some e = some e' := he.symm.trans he'
      cases e1; cases e2
      exact hall j y w h1 h2 hj hlt
    · exact hE'.inv.closed x hx hm hxa

/-- Taking a node out of the queue. -/
theorem HInv.pop (hI : HInv n S St (fun _ => False) T src h P m) (hne : ∃ x, m x ≠ none) :
    ∃ q p, h.queue.pop = some (q, p) ∧ m p.id = some p.key ∧ (∀ x k, m x = some k → p.key ≤ k) ∧
      fn h.dist p.id = p.key ∧ P p.id = true ∧
      Expanding n S St p.id p.key src { h with queue := q } P (fun id => if id = p.id then none else m id) := by
  obtain ⟨q, p, e, h1, h2, h3⟩ := hI.queue.pop hne
  obtain ⟨hp, hd, hT⟩ := hI.key p.id p.key h1
  refine ⟨q, p, e, h1, h2, hd, hp, ⟨?_, hp, by simp, hd⟩⟩
  refine { hI with queue := h3, key := ?_, lo := ?_, why := ?_, closed := ?_ }
  · intro x k hk
    by_cases hx : x = p.id
    · simp [hx] at hk
    · simp only [hx, if_false] at hk
      exact ⟨(hI.key x k hk).1, (hI.key x k hk).2.1, h2 x k hk⟩
  · intro x hx hm
    by_cases hxp : x = p.id
    · subst hxp; exact Nat.le_of_eq hd
    · simp only [hxp, if_false] at hm
      exact Nat.le_trans (hI.lo x hx hm) hT
  · intro x hx
    rcases hI.why x hx with hh | ⟨p', a, w, q1, q2, q3, q4, q5, q6⟩
    · exact Or.inl hh
    · exact Or.inr ⟨p', a, w, q1, q2, q3, q4, by split <;> simp [q5], q6⟩
  · intro x hx hm hxp
    simp only [hxp, if_false] at hm
    exact hI.closed x hx hm id

/-- Not expanding the node because it can be stalled. -/
theorem Expanding.stalled {a : Nat} (hE : Expanding n S St a T src h P m) {y w : Nat} (hst : St a y w)
    (hy : P y = true) (hle : fn h.dist y + w ≤ T) : HInv n S St (fun _ => False) T src h P m := by
  refine { hE.inv with closed := ?_ }
  intro x hx hm _
  by_cases hxa : x = a
  · subst hxa
    exact Or.inl ⟨y, w, hst, hy, by rw [hE.aT]; exact hle⟩
  · exact hE.inv.closed x hx hm hxa

theorem stallScan_spec {O : ChSide} (hO : UpSide n O) (hf : TimestampFlags.Rep h.pushed n P) (hl : h.dist.length = n)
    (hsm : ∀ x, P x = true → fn h.dist x < infWeight) {a : Nat} (ha : a < n) :
    ∀ k arc, (∀ j, arc ≤ j → j < arc + k → OutArc O.firstOut a j) →
    ∃ r, ChHalf.stallScan O h a k arc = some r ∧
      (r = true → ∃ y w, O.R a y w ∧ P y = true ∧ fn h.dist y + w ≤ fn h.dist a)
  | 0, arc, _ => ⟨false, rfl, fun hh => by cases hh⟩
  | k + 1, arc, hj => by
    obtain ⟨y, w, hy, hw, hA⟩ := hO.rd_arc (hj arc (Nat.le_refl _) (by omega))
    obtain ⟨hax, hyn, hwl⟩ := hO.arc hA
    obtain ⟨r, er, hr⟩ := stallScan_spec hO hf hl hsm ha k (arc + 1) (fun j h1 h2 => hj j (by omega) (by omega))
    unfold ChHalf.stallScan
    simp only [hy, hf.isSet hyn, Option.bind_eq_bind, Option.bind_some]
    cases hP : P y with
    | false => exact ⟨r, by simp [er], hr⟩
    | true =>
      have hlt := hsm y hP
      have hs : add32 (fn h.dist y) w = fn h.dist y + w := by
        unfold add32; rw [infWeight_val] at *; rw [u32_val]; omega
      simp only [if_true, rd_fn (v := h.dist) (x := y) (by omega), rd_fn (v := h.dist) (x := a) (by omega),
        hw, Option.bind_some, hs]
      by_cases hle : fn h.dist y + w ≤ fn h.dist a
      · exact ⟨true, by simp [hle], fun _ => ⟨y, w, ⟨arc, hA⟩, hP, hle⟩⟩
      · exact ⟨r, by simp [hle, er], hr⟩

theorem canStall_spec {O : ChSide} (hO : UpSide n O) (hf : TimestampFlags.Rep h.pushed n P) (hl : h.dist.length = n)
    (hsm : ∀ x, P x = true → fn h.dist x < infWeight) {a : Nat} (ha : a < n) :
    ∃ r, ChHalf.canStall O h a = some r ∧
      (r = true → ∃ y w, O.R a y w ∧ P y = true ∧ fn h.dist y + w ≤ fn h.dist a) := by
  obtain ⟨b, e, hb, he, hbe, hel⟩ := hO.ok.csr.range ha
  unfold ChHalf.canStall
  rw [show rd O.firstOut a = some b from hb, show rd O.firstOut (a + 1) = some e from he]
  exact stallScan_spec hO hf hl hsm ha (e - b) b (fun j h1 h2 => ⟨b, e, hb, he, h1, by omega⟩)

/-! ### Adding sources and clearing -/

/-- Nothing has been expanded yet. -/
def Unstarted (P : Nat → Bool) (m : Nat → Option Nat) : Prop := ∀ x, P x = true → m x ≠ none

theorem HInv.addNode (hI : HInv n S St ex 0 src h P m) (hu : Unstarted P m) {rank : List Nat} {x s d : Nat}
    (hr : rd rank x = some s) (hs : s < n) (hd : d < infWeight) :
    ∃ h' P' m', ChHalf.addNode rank h x d = some h' ∧ HInv n S St ex 0 (src ++ [(s, d)]) h' P' m' ∧ Unstarted P' m' := by
  have hsd : s < h.dist.length := by rw [hI.dlen]; exact hs
  have hsp : s < h.predNode.length := by rw [hI.plen]; exact hs
  have hinv : ∀ y, P y = true → fn h.predNode y = invalidId ∧ (y, fn h.dist y) ∈ src := by
    intro y hy
    rcases hI.why y hy with hh | ⟨p, _, _, _, _, _, h4, h5, _⟩
    · exact hh
    · exact absurd h5 (hu p h4)
  obtain ⟨f, ef, hf⟩ := hI.flags.set hs
  unfold ChHalf.addNode
  simp only [hr, hI.queue.containsId hs, Option.bind_eq_bind, Option.bind_some]
  -- the general step: label s with d
  have put : ∀ (q : MinIDQueue) (pn : List Nat), MinIDQueue.Rep q n (fun id => if id = s then some d else m id) →
      (P s = true → d ≤ fn h.dist s) → pn.length = n →
      (∀ y, fn pn y = if y = s then invalidId else fn h.predNode y) →
      HInv n S St ex 0 (src ++ [(s, d)]) { h with queue := q, dist := h.dist.set s d, predNode := pn, pushed := f }
        (fun j => if j = s then true else P j) (fun id => if id = s then some d else m id) ∧
      Unstarted (fun j => if j = s then true else P j) (fun id => if id = s then some d else m id) := by
    intro q pn hq hle hpl hpn
    have hdist : ∀ y, fn (h.dist.set s d) y = if y = s then d else fn h.dist y := fun y => fn_set hsd
    have hun : Unstarted (fun j => if j = s then true else P j) (fun id => if id = s then some d else m id) := by
      intro y hy
      by_cases hys : y = s
      · simp [hys]
      · simp only [hys, if_false] at hy ⊢; exact hu y hy
    refine ⟨⟨hf, hq, by simp [hI.dlen], hpl, hI.alen, ?_, ?_, ?_, ?_, ?_, ?_⟩, hun⟩
    · intro y k hk
      by_cases hys : y = s
      · subst hys; simp only [if_true, Option.some.injEq] at hk
        exact ⟨by simp, by simp only [hdist, if_true]; exact hk, Nat.zero_le _⟩
      · simp only [hys, if_false] at hk
        obtain ⟨h1, h2, h3⟩ := hI.key y k hk
        exact ⟨by simp [hys, h1], by simp only [hdist, hys, if_false]; exact h2, h3⟩
    · intro y hy hm; exact absurd hm (hun y hy)
    · intro y hy
      simp only [hdist]
      by_cases hys : y = s
      · subst hys; simp; exact ⟨hs, hd⟩
      · simp only [hys, if_false] at hy ⊢; exact hI.small y hy
    · intro y hy
      left
      simp only [hdist, hpn]
      by_cases hys : y = s
      · subst hys; simp
      · simp only [hys, if_false] at hy ⊢
        exact ⟨(hinv y hy).1, List.mem_append_left _ (hinv y hy).2⟩
    · intro y k hy
      simp only [hdist]
      rcases List.mem_append.1 hy with hy | hy
      · obtain ⟨h1, h2⟩ := hI.srcs y k hy
        by_cases hys : y = s
        · subst hys; simp; exact Nat.le_trans (hle h1) h2
        · simp only [hys, if_false]; exact ⟨h1, h2⟩
      · simp only [List.mem_singleton, Prod.mk.injEq] at hy
        obtain ⟨rfl, rfl⟩ := hy
        simp
    · intro y hy hm; exact absurd hm (hun y hy)
  cases hm : m s with
  | none =>
    obtain ⟨q, eq, hq⟩ := hI.queue.push (p := ⟨s, d⟩) hs hm
    have hPs : ¬ P s = true := fun hp => hu s hp hm
    obtain ⟨r1, r2⟩ := put q (h.predNode.set s invalidId) hq (fun hp => absurd hp hPs) (by simp [hI.plen])
      (fun y => fn_set hsp)
    exact ⟨_, _, _, by simp only [Option.isSome_none, Bool.false_eq_true, if_false, eq, ef, wr_lt hsd, wr_lt hsp, Option.bind_some], r1, r2⟩
  | some k =>
    obtain ⟨hPs, hk, _⟩ := hI.key s k hm
    simp only [Option.isSome_some, if_true, rd_fn hsd, Option.bind_some]
    by_cases hlt : d < fn h.dist s
    · obtain ⟨q, eq, hq⟩ := hI.queue.decreaseKey (p := ⟨s, d⟩) hm
      have hmin : min k d = d := by rw [← hk]; omega
      simp only [hmin] at hq
      obtain ⟨r1, r2⟩ := put q h.predNode hq (fun _ => by omega) hI.plen
        (fun y => by by_cases hys : y = s <;> simp [hys, (hinv s hPs).1])
      exact ⟨_, _, _, by simp only [hlt, if_true, eq, ef, wr_lt hsd, Option.bind_some], r1, r2⟩
    · have hP : (fun j => if j = s then true else P j) = P := by
        funext j; by_cases hj : j = s <;> simp [hj, hPs]
      rw [hP] at hf
      refine ⟨{ h with pushed := f }, P, m, by simp only [hlt, if_false, ef, Option.bind_some], ?_, hu⟩
      refine { hI with flags := hf, why := ?_, srcs := ?_ }
      · intro y hy
        exact Or.inl ⟨(hinv y hy).1, List.mem_append_left _ (hinv y hy).2⟩
      · intro y e hy
        rcases List.mem_append.1 hy with hy | hy
        · exact hI.srcs y e hy
        · simp only [List.mem_singleton, Prod.mk.injEq] at hy
          obtain ⟨rfl, rfl⟩ := hy
          exact ⟨hPs, by dsimp only; omega⟩

/-- What a half looks like in every state of the query object. -/
structure HalfOk (n : Nat) (h : ChHalf) : Prop where
  flags : ∃ P, TimestampFlags.Rep h.pushed n P
  queue : ∃ m, MinIDQueue.Rep h.queue n m
  dlen : h.dist.length = n
  plen : h.predNode.length = n
  alen : h.predArc.length = n

theorem HInv.halfOk (hI : HInv n S St ex T src h P m) : HalfOk n h :=
  ⟨⟨_, hI.flags⟩, ⟨_, hI.queue⟩, hI.dlen, hI.plen, hI.alen⟩

theorem HalfOk.clear (hh : HalfOk n h) :
    ∃ h', h.clear = some h' ∧ HInv n S St ex 0 [] h' (fun _ => false) (fun _ => none) := by
  obtain ⟨P, hf⟩ := hh.flags
  obtain ⟨m, hq⟩ := hh.queue
  obtain ⟨q, eq, hq'⟩ := hq.clear
  refine ⟨{ h with pushed := h.pushed.resetAll, queue := q }, by simp [ChHalf.clear, eq], ?_⟩
  exact ⟨hf.resetAll, hq', hh.dlen, hh.plen, hh.alen, by simp, by simp, by simp, by simp, by simp, by simp⟩

end RK
