import Verif.Proof.IdQueue
import Verif.Proof.TimestampFlags
/-! Helper lemmas: two runs of the same program on queues that differ only in unused memory. -/
namespace RK

/-- If both runs are defined then their results are related. -/
def ORel {α β : Type} (R : α → β → Prop) (a : Option α) (b : Option β) : Prop :=
  ∀ x y, a = some x → b = some y → R x y

section ORel
variable {α β γ δ : Type} {R : α → β → Prop} {Q : γ → δ → Prop}

theorem ORel.pure {x : α} {y : β} (h : R x y) : ORel R (some x) (some y) := by
  intro x' y' e1 e2
  cases e1; cases e2; exact h

theorem ORel.bind {a : Option α} {b : Option β} {f : α → Option γ} {g : β → Option δ} (h : ORel R a b)
    (hf : ∀ x y, a = some x → b = some y → R x y → ORel Q (f x) (g y)) : ORel Q (a.bind f) (b.bind g) := by
  intro x y e1 e2
  rw [Option.bind_eq_some_iff] at e1 e2
  obtain ⟨u, e1, e1'⟩ := e1
  obtain ⟨v, e2, e2'⟩ := e2
  exact hf u v e1 e2 (h u v e1 e2) x y e1' e2'

theorem ORel.of_eq {a b : Option α} (h : a = b) : ORel Eq a b := by
  subst h
  intro x y e1 e2
  rw [e1] at e2; cases e2; rfl

theorem ORel.mono {R' : α → β → Prop} {a : Option α} {b : Option β} (h : ORel R a b) (hm : ∀ x y, R x y → R' x y) :
    ORel R' a b := fun x y e1 e2 => hm x y (h x y e1 e2)

/-- The same read in both runs. -/
theorem ORel.bind_eq {a b : Option α} {f : α → Option γ} {g : α → Option δ} (h : a = b)
    (hf : ∀ x, a = some x → b = some x → ORel Q (f x) (g x)) : ORel Q (a.bind f) (b.bind g) :=
  (ORel.of_eq h).bind fun x y e1 e2 e => by subst e; exact hf x e1 e2

theorem ORel.check {b c : Bool} {f : Unit → Option γ} {g : Unit → Option δ} {Q : γ → δ → Prop} (hf : b = true → c = true → ORel Q (f ()) (g ())) :
    ORel Q ((RK.check b).bind f) ((RK.check c).bind g) := by
  intro x y e1 e2
  cases b <;> cases c <;> simp [RK.check] at e1 e2
  exact hf rfl rfl x y e1 e2

theorem ORel.forN {R : Nat → α → β → Prop} {f : α → Nat → Option α} {g : β → Nat → Option β} :
    ∀ (k lo : Nat) (s : α) (t : β), R lo s t →
    (∀ i s t, lo ≤ i → i < lo + k → R i s t → ORel (R (i + 1)) (f s i) (g t i)) →
    ORel (R (lo + k)) (forN f lo k s) (RK.forN g lo k t)
  | 0, lo, s, t, h, _ => ORel.pure h
  | k + 1, lo, s, t, h, hs => by
    unfold RK.forN
    refine ORel.bind (hs lo s t (Nat.le_refl _) (by omega) h) fun x y _ _ hxy => ?_
    have := ORel.forN (R := R) (f := f) (g := g) k (lo + 1) x y hxy fun i s t h1 h2 h3 => hs i s t (by omega) (by omega) h3
    rw [show lo + (k + 1) = lo + 1 + k by omega]
    exact this

theorem ORel.forRange {R : Nat → α → β → Prop} {f : α → Nat → Option α} {g : β → Nat → Option β} {lo hi : Nat}
    (hle : lo ≤ hi) {s : α} {t : β} (h : R lo s t)
    (hs : ∀ i s t, lo ≤ i → i < hi → R i s t → ORel (R (i + 1)) (f s i) (g t i)) :
    ORel (R hi) (forRange lo hi s f) (RK.forRange lo hi t g) := by
  have := ORel.forN (R := R) (f := f) (g := g) (hi - lo) lo s t h fun i s t h1 h2 h3 => hs i s t h1 (by omega) h3
  rw [show lo + (hi - lo) = hi by omega] at this
  exact this

theorem ORel.forRange_const {f : α → Nat → Option α} {g : β → Nat → Option β} {lo hi : Nat}
    {s : α} {t : β} (h : R s t)
    (hs : ∀ i s t, lo ≤ i → i < hi → R s t → ORel R (f s i) (g t i)) :
    ORel R (RK.forRange lo hi s f) (RK.forRange lo hi t g) :=
  ORel.forN (R := fun _ => R) (f := f) (g := g) (hi - lo) lo s t h fun i s t h1 h2 h3 => hs i s t h1 (by omega) h3

theorem ORel.forEach {ε : Type} {f : α → ε → Option α} {g : β → ε → Option β} : ∀ (l : List ε) {s : α} {t : β}, R s t →
    (∀ s t x, x ∈ l → R s t → ORel R (f s x) (g t x)) → ORel R (forEach l s f) (RK.forEach l t g)
  | [], s, t, h, _ => ORel.pure h
  | x :: l, s, t, h, hs => by
    unfold RK.forEach
    exact ORel.bind (hs s t x (by simp) h) fun u v _ _ huv => ORel.forEach l huv fun s t y hy => hs s t y (by simp [hy])

end ORel

/-- Writing the same value keeps lists equal at every position of `D` and at the written one. -/
theorem rd_wr_same {v w v' w' : List Nat} {i x : Nat} (h1 : wr v i x = some v') (h2 : wr w i x = some w') {j : Nat}
    (h : j ≠ i → rd v j = rd w j) : rd v' j = rd w' j := by
  rw [rd_wr h1, rd_wr h2]
  split
  · rfl
  · rename_i hj; exact h hj

namespace MinIDQueue

/-- Equal positions and sizes, and equal heaps below `m`. -/
structure Agree (k m : Nat) (q1 q2 : MinIDQueue) : Prop where
  idPos : q1.idPos = q2.idPos
  size1 : q1.heapSize = k
  size2 : q2.heapSize = k
  heap : ∀ i, i < m → rd q1.heap i = rd q2.heap i

variable {k m : Nat} {q1 q2 : MinIDQueue}

theorem Agree.swapEntries (h : Agree k m q1 q2) {i j : Nat} (hi : i < m) (hj : j < m) :
    ORel (Agree k m) (q1.swapEntries i j) (q2.swapEntries i j) := by
  unfold MinIDQueue.swapEntries
  simp only [Option.bind_eq_bind]
  refine ORel.bind_eq (h.heap i hi) fun a _ _ => ?_
  refine ORel.bind_eq (h.heap j hj) fun b _ _ => ?_
  refine ORel.bind (R := fun u v => ∀ p, p < m → rd u p = rd v p) ?_ fun u1 v1 _ _ H1 => ?_
  · intro u v e1 e2 p hp
    rw [rd_wr e1, rd_wr e2, h.heap p hp]
  refine ORel.bind (R := fun u v => ∀ p, p < m → rd u p = rd v p) ?_ fun u2 v2 _ _ H2 => ?_
  · intro u v e1 e2 p hp
    rw [rd_wr e1, rd_wr e2, H1 p hp]
  rw [h.idPos]
  refine ORel.bind_eq rfl fun pb _ _ => ORel.bind_eq rfl fun pa _ _ => ORel.bind_eq rfl fun l1 _ _ =>
    ORel.bind_eq rfl fun l2 _ _ => ORel.pure ⟨rfl, h.size1, h.size2, H2⟩

theorem Agree.moveUp : ∀ (fuel : Nat) {q1 q2 : MinIDQueue} {pos : Nat}, Agree k m q1 q2 → pos < m →
    ORel (Agree k m) (MinIDQueue.moveUp fuel q1 pos) (MinIDQueue.moveUp fuel q2 pos)
  | 0, _, _, _, _, _ => fun _ _ e => by cases e
  | fuel + 1, q1, q2, pos, h, hp => by
    unfold MinIDQueue.moveUp
    split
    · simp only [Option.bind_eq_bind]
      have hpar : (pos - 1) / treeArity < m := by
        have : (pos - 1) / treeArity ≤ pos - 1 := Nat.div_le_self _ _
        omega
      refine ORel.bind_eq (h.heap _ hpar) fun ep _ _ => ?_
      refine ORel.bind_eq (h.heap _ hp) fun e _ _ => ?_
      split
      · exact ORel.bind (h.swapEntries hp hpar) fun a b _ _ hab => hab.moveUp fuel hpar
      · exact ORel.bind (ORel.pure h) fun a b _ _ hab => hab.moveUp fuel hpar
    · exact ORel.pure h

theorem smallestChild_agree {h1 h2 : List IDKeyPair} {m : Nat} (h : ∀ i, i < m → rd h1 i = rd h2 i) {f last : Nat} (hf : f < m)
    (hl : last ≤ m) : ORel (fun a b => a = b ∧ a < m) (smallestChild h1 f last) (smallestChild h2 f last) := by
  unfold smallestChild
  refine ORel.forRange_const ⟨rfl, hf⟩ ?_
  rintro i s t h1' h2' ⟨rfl, hs⟩
  simp only [Option.bind_eq_bind]
  refine ORel.bind_eq (h s hs) fun es _ _ => ?_
  refine ORel.bind_eq (h i (by omega)) fun ec _ _ => ORel.pure ?_
  split
  · exact ⟨rfl, by omega⟩
  · exact ⟨rfl, hs⟩

theorem Agree.moveDown (hkm : k ≤ m) : ∀ (fuel : Nat) {q1 q2 : MinIDQueue} {pos : Nat}, Agree k m q1 q2 → pos < m →
    ORel (Agree k m) (MinIDQueue.moveDown fuel q1 pos) (MinIDQueue.moveDown fuel q2 pos)
  | 0, _, _, _, _, _ => fun _ _ e => by cases e
  | fuel + 1, q1, q2, pos, h, hp => by
    unfold MinIDQueue.moveDown
    simp only [h.size1, h.size2]
    by_cases hc : add32 (mul32 treeArity pos) 1 ≥ k
    · simp only [hc, if_true]; exact ORel.pure h
    · simp only [hc, if_false, Option.bind_eq_bind]
      refine ORel.bind (smallestChild_agree h.heap (by omega) (by omega)) fun s t _ _ hst => ?_
      obtain ⟨rfl, hs⟩ := hst
      refine ORel.bind_eq (h.heap s hs) fun es _ _ => ORel.bind_eq (h.heap pos hp) fun e _ _ => ?_
      split
      · exact ORel.pure h
      · exact ORel.bind (h.swapEntries hp hs) fun a b _ _ hab => hab.moveDown hkm fuel hs

/-- Two queues with the same contents; only memory beyond the heap may differ. `S` contains all queued ids. -/
structure Same (n : Nat) (S : Nat → Prop) (q1 q2 : MinIDQueue) : Prop where
  agree : Agree q1.heapSize q1.heapSize q1 q2
  rep1 : ∃ m, Rep q1 n m ∧ ∀ x, m x ≠ none → S x
  rep2 : ∃ m, Rep q2 n m

variable {n : Nat} {S : Nat → Prop}

theorem Same.mono (h : Same n S q1 q2) {S' : Nat → Prop} (hS : ∀ x, S x → S' x) : Same n S' q1 q2 := by
  obtain ⟨m, h1, h2⟩ := h.rep1
  exact ⟨h.agree, ⟨m, h1, fun x hx => hS x (h2 x hx)⟩, h.rep2⟩

theorem Same.empty (h : Same n S q1 q2) : q1.empty = q2.empty := by
  unfold MinIDQueue.empty
  rw [h.agree.size2]

theorem Same.containsId (h : Same n S q1 q2) (x : Nat) : q1.containsId x = q2.containsId x := by
  unfold MinIDQueue.containsId MinIDQueue.idCount
  rw [h.agree.idPos]

theorem Same.contained (h : Same n S q1 q2) {x : Nat} (hx : q1.containsId x = some true) : S x := by
  obtain ⟨m, h1, h2⟩ := h.rep1
  have hn : x < n := by
    simp only [MinIDQueue.containsId, Option.bind_eq_bind, Option.bind_eq_some_iff, check_eq_some, decide_eq_true_eq] at hx
    obtain ⟨_, hx, _⟩ := hx
    unfold MinIDQueue.idCount at hx
    rw [h1.pos.lenP] at hx; exact hx
  rw [h1.containsId hn] at hx
  refine h2 x fun hm => ?_
  rw [hm] at hx; cases hx

theorem Same.peek (h : Same n S q1 q2) : q1.peek = q2.peek := by
  unfold MinIDQueue.peek
  rw [← h.empty]
  by_cases he : q1.empty = true
  · simp [he, check]
  · have : 0 < q1.heapSize := by
      unfold MinIDQueue.empty at he
      simp at he; omega
    rw [h.agree.heap 0 this]

theorem Same.push (h : Same n S q1 q2) {p : IDKeyPair} (hp : S p.id) : ORel (Same n S) (q1.push p) (q2.push p) := by
  intro r1 r2 e1 e2
  have hA : ORel (Agree (q1.heapSize + 1) (q1.heapSize + 1)) (q1.push p) (q2.push p) := by
    unfold MinIDQueue.push
    simp only [Option.bind_eq_bind]
    refine ORel.check fun _ _ => ?_
    refine ORel.bind_eq (h.containsId p.id) fun c _ _ => ORel.check fun _ _ => ?_
    rw [h.agree.size2]
    refine ORel.bind (R := fun u v => ∀ i, i < q1.heapSize + 1 → rd u i = rd v i) ?_ fun u v _ _ H => ?_
    · intro u v e1 e2 i hi
      rw [rd_wr e1, rd_wr e2]
      split
      · rfl
      · exact h.agree.heap i (by omega)
    rw [h.agree.idPos]
    refine ORel.bind_eq rfl fun l _ _ => ?_
    exact Agree.moveUp _ ⟨rfl, rfl, rfl, H⟩ (by omega)
  have hA := hA r1 r2 e1 e2
  have key : ∀ {q : MinIDQueue} {m : Nat → Option Nat} {r : MinIDQueue}, Rep q n m → q.push p = some r →
      Rep r n (fun id => if id = p.id then some p.key else m id) := by
    intro q m r hr e
    have e' := e
    simp only [MinIDQueue.push, Option.bind_eq_bind, Option.bind_eq_some_iff, check_eq_some, decide_eq_true_eq] at e'
    obtain ⟨_, hn, c, hc, _, hnc, _⟩ := e'
    unfold MinIDQueue.idCount at hn
    rw [hr.pos.lenP] at hn
    rw [hr.containsId hn] at hc
    cases hc
    obtain ⟨r', e', hr'⟩ := hr.push hn (by simpa using hnc)
    rw [e] at e'; cases e'; exact hr'
  obtain ⟨m1, hr1, hS⟩ := h.rep1
  obtain ⟨m2, hr2⟩ := h.rep2
  refine ⟨by rw [hA.size1]; exact hA, ⟨_, key hr1 e1, ?_⟩, ⟨_, key hr2 e2⟩⟩
  intro x hx
  by_cases hxp : x = p.id
  · rw [hxp]; exact hp
  · simp only [hxp, if_false] at hx; exact hS x hx

theorem Same.decreaseKey (h : Same n S q1 q2) {p : IDKeyPair} :
    ORel (fun a b => Same n S a.1 b.1 ∧ a.2 = b.2) (q1.decreaseKey p) (q2.decreaseKey p) := by
  rintro ⟨r1, c1⟩ ⟨r2, c2⟩ e1 e2
  obtain ⟨m1, hr1, hS⟩ := h.rep1
  obtain ⟨m2, hr2⟩ := h.rep2
  have cont : ∀ {q : MinIDQueue} {m : Nat → Option Nat} {r : MinIDQueue × Bool}, Rep q n m → q.decreaseKey p = some r →
      ∃ k, m p.id = some k := by
    intro q m r hr e
    simp only [MinIDQueue.decreaseKey, Option.bind_eq_bind, Option.bind_eq_some_iff, check_eq_some, decide_eq_true_eq] at e
    obtain ⟨_, hn, c, hc, _, hnc, _⟩ := e
    unfold MinIDQueue.idCount at hn
    rw [hr.pos.lenP] at hn
    rw [hr.containsId hn] at hc
    subst hnc
    exact Option.isSome_iff_exists.1 (by simpa using hc)
  obtain ⟨k1, hk1⟩ := cont hr1 e1
  obtain ⟨k2, hk2⟩ := cont hr2 e2
  have hA : ORel (fun a b => Agree q1.heapSize q1.heapSize a.1 b.1 ∧ a.2 = b.2) (q1.decreaseKey p) (q2.decreaseKey p) := by
    unfold MinIDQueue.decreaseKey
    simp only [Option.bind_eq_bind]
    refine ORel.check fun _ _ => ?_
    refine ORel.bind_eq (h.containsId p.id) fun c _ _ => ORel.check fun _ _ => ?_
    obtain ⟨_, i, hi, hpos, _⟩ := hr1.pos.fwd_some _ _ hk1
    rw [← h.agree.idPos, hpos]
    simp only [Option.bind_some]
    refine ORel.bind_eq (h.agree.heap i hi) fun e _ _ => ?_
    split
    · refine ORel.bind (R := fun u v => ∀ i, i < q1.heapSize → rd u i = rd v i) ?_ fun u v _ _ H => ?_
      · intro u v e1 e2 i hi
        rw [rd_wr e1, rd_wr e2, h.agree.heap i hi]
      exact ORel.bind (Agree.moveUp _ ⟨rfl, rfl, h.agree.size2, H⟩ hi) fun a b _ _ hab => ORel.pure ⟨hab, rfl⟩
    · exact ORel.pure ⟨h.agree, rfl⟩
  obtain ⟨hA, hc⟩ := hA _ _ e1 e2
  obtain ⟨r1', e1', g1⟩ := hr1.decreaseKey hk1
  obtain ⟨r2', e2', g2⟩ := hr2.decreaseKey hk2
  rw [e1] at e1'; cases e1'
  rw [e2] at e2'; cases e2'
  dsimp only at hA hc ⊢
  refine ⟨⟨by rw [hA.size1]; exact hA, ⟨_, g1, ?_⟩, ⟨_, g2⟩⟩, hc⟩
  intro x hx
  by_cases hxp : x = p.id
  · rw [hxp]; exact hS _ (by rw [hk1]; simp)
  · simp only [hxp, if_false] at hx; exact hS x hx

theorem Same.pop (h : Same n S q1 q2) :
    ORel (fun a b => Same n S a.1 b.1 ∧ a.2 = b.2 ∧ S a.2.id) (q1.pop) (q2.pop) := by
  rintro ⟨r1, p1⟩ ⟨r2, p2⟩ e1 e2
  obtain ⟨m1, hr1, hS⟩ := h.rep1
  obtain ⟨m2, hr2⟩ := h.rep2
  have hne : q1.empty = false := by
    simp only [MinIDQueue.pop, Option.bind_eq_bind, Option.bind_eq_some_iff, check_eq_some] at e1
    obtain ⟨_, hc, _⟩ := e1
    simpa using hc
  have hsz : 0 < q1.heapSize := by
    unfold MinIDQueue.empty at hne
    simp at hne; omega
  have ex : ∀ {q : MinIDQueue} {m : Nat → Option Nat}, Rep q n m → q.empty = false → ∃ x, m x ≠ none := by
    intro q m hr he
    by_contra hc
    have := hr.empty_iff.2 (fun id => by by_contra h1; exact hc ⟨id, h1⟩)
    rw [he] at this; cases this
  have hA : ORel (fun a b => Agree (q1.heapSize - 1) q1.heapSize a.1 b.1 ∧ a.2 = b.2) q1.pop q2.pop := by
    unfold MinIDQueue.pop
    simp only [Option.bind_eq_bind]
    refine ORel.check fun _ _ => ?_
    rw [h.agree.size2]
    refine ORel.bind_eq (h.agree.heap 0 hsz) fun a _ _ => ?_
    refine ORel.bind_eq (h.agree.heap _ (by omega)) fun b _ _ => ?_
    refine ORel.bind (R := fun u v => ∀ i, i < q1.heapSize → rd u i = rd v i) ?_ fun u v _ _ H => ?_
    · intro u v e1 e2 i hi
      rw [rd_wr e1, rd_wr e2, h.agree.heap i hi]
    refine ORel.bind (R := fun u v => ∀ i, i < q1.heapSize → rd u i = rd v i) ?_ fun u v _ _ H => ?_
    · intro u v e1 e2 i hi
      rw [rd_wr e1, rd_wr e2, H i hi]
    refine ORel.bind_eq (H 0 hsz) fun e0 _ _ => ORel.bind_eq (H _ (by omega)) fun en _ _ => ?_
    rw [h.agree.idPos]
    refine ORel.bind_eq rfl fun l _ _ => ORel.bind_eq rfl fun l _ _ => ?_
    refine ORel.bind (Agree.moveDown (k := q1.heapSize - 1) (by omega) _ ⟨rfl, rfl, rfl, H⟩ hsz) fun a b _ _ hab => ?_
    exact ORel.bind_eq (hab.heap _ (by omega)) fun r _ _ => ORel.pure ⟨hab, rfl⟩
  obtain ⟨hA, hc⟩ := hA _ _ e1 e2
  obtain ⟨r1', p1', e1', g1, _, g2⟩ := hr1.pop (ex hr1 hne)
  obtain ⟨r2', p2', e2', _, _, g3⟩ := hr2.pop (ex hr2 (by rw [← h.empty]; exact hne))
  rw [e1] at e1'; cases e1'
  rw [e2] at e2'; cases e2'
  dsimp only at hA hc ⊢
  refine ⟨⟨?_, ⟨_, g2, ?_⟩, ⟨_, g3⟩⟩, hc, hS _ (by rw [g1]; simp)⟩
  · rw [hA.size1]
    exact ⟨hA.idPos, hA.size1, hA.size2, fun i hi => hA.heap i (by omega)⟩
  · intro x hx
    by_cases hxp : x = p1.id
    · simp [hxp] at hx
    · simp only [hxp, if_false] at hx; exact hS x hx

/-- Two empty queues. -/
theorem Rep.same (h1 : Rep q1 n (fun _ => none)) (h2 : Rep q2 n (fun _ => none)) (S : Nat → Prop) : Same n S q1 q2 := by
  have z : ∀ {q : MinIDQueue}, Rep q n (fun _ => none) → q.heapSize = 0 := by
    intro q hr
    have := hr.empty_iff.2 (fun _ => rfl)
    simpa [MinIDQueue.empty] using this
  have p : ∀ {q : MinIDQueue}, Rep q n (fun _ => none) → ∀ i, i < n → rd q.idPos i = some invalidId :=
    fun hr i hi => hr.pos.fwd_none i hi rfl
  refine ⟨⟨?_, rfl, ?_, ?_⟩, ⟨_, h1, fun x hx => absurd rfl hx⟩, ⟨_, h2⟩⟩
  · refine list_ext_rd (by rw [h1.pos.lenP, h2.pos.lenP]) fun i hi => ?_
    rw [h1.pos.lenP] at hi
    rw [p h1 i hi, p h2 i hi]
  · rw [z h1, z h2]
  · intro i hi
    rw [z h1] at hi; omega

end MinIDQueue

namespace TimestampFlags

/-- The same flags are set. -/
def Same (f g : TimestampFlags) : Prop := ∀ i, f.isSet i = g.isSet i

variable {f g : TimestampFlags}

theorem isSet_set {f f' : TimestampFlags} {x : Nat} (h : f.set x = some f') (i : Nat) :
    f'.isSet i = if i = x then some true else f.isSet i := by
  simp only [TimestampFlags.set, Option.bind_eq_bind, Option.bind_eq_some_iff] at h
  obtain ⟨l, hl, h⟩ := h
  cases h
  simp only [TimestampFlags.isSet, rd_wr hl, Option.bind_eq_bind]
  split
  · simp
  · rfl

theorem isSet_resetOne {f f' : TimestampFlags} (hlt : f.currentTimestamp < u16) {x : Nat} (h : f.resetOne x = some f') (i : Nat) :
    f'.isSet i = if i = x then some false else f.isSet i := by
  simp only [TimestampFlags.resetOne, Option.bind_eq_bind, Option.bind_eq_some_iff] at h
  obtain ⟨l, hl, h⟩ := h
  cases h
  simp only [TimestampFlags.isSet, rd_wr hl, Option.bind_eq_bind]
  split
  · simp only [Option.bind_some, Option.some.injEq, beq_eq_false_iff_ne]
    unfold u16 at *
    omega
  · rfl

theorem Same.set (h : Same f g) (x : Nat) :
    ORel (fun a b => Same a b ∧ ∀ i, a.isSet i = if i = x then some true else f.isSet i) (f.set x) (g.set x) := by
  intro a b e1 e2
  refine ⟨fun i => ?_, isSet_set e1⟩
  rw [isSet_set e1, isSet_set e2, h i]

theorem Rep.same {n : Nat} (h1 : Rep f n (fun _ => false)) (h2 : Rep g n (fun _ => false)) : Same f g := by
  intro i
  by_cases hi : i < n
  · rw [h1.isSet hi, h2.isSet hi]
  · unfold TimestampFlags.isSet rd
    rw [List.getElem?_eq_none (by rw [h1.len]; omega), List.getElem?_eq_none (by rw [h2.len]; omega)]
    rfl

end TimestampFlags
end RK
