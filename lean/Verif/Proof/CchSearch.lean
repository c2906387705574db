import Verif.Proof.CchSpace
import Verif.Proof.Hier
/-! The searches of the elimination tree queries. -/
namespace RK
open Spec

/-- The arcs of the up graph with weights `W`. -/
def UpRel (tail head : List Nat) (W : Nat → Nat) : ArcR := fun x y v => ∃ a, rd tail a = some x ∧ rd head a = some y ∧ v = W a

/-- What the searches need to know about the hierarchy. -/
structure UpCtx (n : Nat) (c : Cch) (wv : List Nat) (W : Nat → Nat) : Prop where
  up : UpOk n c.upFirstOut c.upHead c.upTail
  isW : Is wv c.upTail.length W
  le : ∀ a, a < c.upTail.length → W a ≤ infWeight
  later : ∀ x y L, Topo c.parent (x :: L) → HasArc c.upTail c.upHead x y → y ∈ L
  small : n ≤ invalidId

theorem add32_le {a b : Nat} (h1 : a ≤ infWeight) (h2 : b ≤ infWeight) : add32 a b = a + b := by
  have : infWeight = 2147483647 := rfl
  unfold add32 u32; omega

/-- One relaxation of all arcs of `x`; `PR` says how predecessors are stored. -/
theorem relaxOut_spec {n : Nat} {c : Cch} {wv : List Nat} {W : Nat → Nat} (h : UpCtx n c wv W)
    {setPred : List Nat → Nat → Nat → Option (List Nat)} {PR : List Nat → (Nat → Nat) → Prop}
    (hset : ∀ p P y x, PR p P → y < n → ∃ p', setPred p y x = some p' ∧ PR p' (setAt P y x))
    {d p : List Nat} {D P : Nat → Nat} (hd : Is d n D) (hp : PR p P) (hle : ∀ y, y < n → D y ≤ infWeight) {x : Nat} (hx : x < n) :
    ∃ d' p' D' P', CchHalf.relaxOut c.upFirstOut c.upHead wv setPred (d, p) x = some (d', p') ∧ Is d' n D' ∧ PR p' P' ∧
      (∀ y, D' y ≤ D y) ∧ (∀ a y, rd c.upTail a = some x → rd c.upHead a = some y → D' y ≤ D x + W a) ∧
      ∀ y, (D' y = D y ∧ P' y = P y) ∨
        ∃ a, rd c.upTail a = some x ∧ rd c.upHead a = some y ∧ D' y = D x + W a ∧ D' y < D y ∧ P' y = x := by
  have hidx := h.up.idx.2
  have hsort := h.up.sorted.pairwise
  unfold CchHalf.relaxOut
  simp only [hidx x (by omega), hidx (x + 1) (by omega), Option.bind_eq_bind, Option.bind_some]
  obtain ⟨⟨d', p'⟩, e, D', P', g1, g2, g3, g4, g5⟩ := forRange_inv (lo := cLt c.upTail x) (hi := cLt c.upTail (x + 1)) (s := (d, p))
    (f := CchHalf.relaxOutArc c.upHead wv setPred x)
    (fun k s => ∃ D' P', Is s.1 n D' ∧ PR s.2 P' ∧ (∀ y, D' y ≤ D y) ∧
      (∀ a y, a < k → rd c.upTail a = some x → rd c.upHead a = some y → D' y ≤ D x + W a) ∧
      ∀ y, (D' y = D y ∧ P' y = P y) ∨
        ∃ a, rd c.upTail a = some x ∧ rd c.upHead a = some y ∧ D' y = D x + W a ∧ D' y < D y ∧ P' y = x)
    (cLt_mono c.upTail (by omega))
    ⟨D, P, hd, hp, fun y => Nat.le_refl _, fun a y ha ht _ => by have := ((cLt_range hsort).1 ht).1; omega,
      fun y => Or.inl ⟨rfl, rfl⟩⟩
    (by
      rintro k ⟨d, p⟩ hk1 hk2 ⟨D', P', g1, g2, g3, g4, g5⟩
      have hkt := (cLt_range hsort).2 ⟨hk1, hk2⟩
      have hkl := rd_some_lt hkt
      obtain ⟨y, hy⟩ := rd_isSome (v := c.upHead) (i := k) (by rw [← h.up.sorted.1]; exact hkl)
      have hxy := h.up.up x y ⟨k, hkt, hy⟩
      have hDx : D' x = D x := by
        rcases g5 x with ⟨q, _⟩ | ⟨a, q1, q2, _⟩
        · exact q
        · have := (h.up.up x x ⟨a, q1, q2⟩).1; omega
      have ha : add32 (D x) (W k) = D x + W k := add32_le (hle x hx) (h.le k hkl)
      unfold CchHalf.relaxOutArc
      simp only [hy, g1.2 x hx, h.isW.2 k hkl, g1.2 y hxy.2, hDx, ha, Option.bind_eq_bind, Option.bind_some]
      by_cases hlt : D x + W k < D' y
      · rw [if_pos hlt]
        obtain ⟨d', e1, hd'⟩ := g1.wr hxy.2 (D x + W k)
        obtain ⟨p', e2, hp'⟩ := hset p P' y x g2 hxy.2
        simp only [e1, e2, Option.bind_some]
        have hyD := g3 y
        refine ⟨(d', p'), rfl, _, _, hd', hp', ?_, ?_, ?_⟩
        · intro z
          by_cases hz : z = y
          · subst hz; rw [setAt_same]; omega
          · rw [setAt_other _ _ hz]; exact g3 z
        · intro a z ha hat haz
          by_cases hz : z = y
          · subst hz
            rw [setAt_same]
            by_cases hak : a = k
            · subst hak; exact Nat.le_refl _
            · have := g4 a z (by omega) hat haz; omega
          · rw [setAt_other _ _ hz]
            by_cases hak : a = k
            · subst hak; exact absurd (rd_congr_some haz hy) hz
            · exact g4 a z (by omega) hat haz
        · intro z
          by_cases hz : z = y
          · subst hz
            rw [setAt_same, setAt_same]
            exact Or.inr ⟨k, hkt, hy, rfl, by omega, rfl⟩
          · rw [setAt_other _ _ hz, setAt_other _ _ hz]; exact g5 z
      · rw [if_neg hlt]
        refine ⟨(d, p), rfl, D', P', g1, g2, g3, ?_, g5⟩
        intro a z ha hat haz
        by_cases hak : a = k
        · subst hak
          rw [rd_congr_some haz hy]; omega
        · exact g4 a z (by omega) hat haz)
  refine ⟨d', p', D', P', e, g1, g2, g3, ?_, g5⟩
  intro a y hat hay
  exact g4 a y ((cLt_range hsort).1 hat).2 hat hay

/-- The labels while the nodes `pre` of the search space `L` have been processed; `S` are the start nodes with their
offsets. -/
structure SInv (n : Nat) (tail head : List Nat) (W : Nat → Nat) (S : List (Nat × Nat)) (L pre : List Nat) (D P : Nat → Nat) :
    Prop where
  le : ∀ x, x < n → D x ≤ infWeight
  out : ∀ x, x < n → x ∉ L → D x = infWeight
  src : ∀ s d, (s, d) ∈ S → D s ≤ d
  done : ∀ x ∈ pre, ∀ a y, rd tail a = some x → rd head a = some y → D y ≤ D x + W a
  lab : ∀ x, x < n → D x < infWeight → (P x = invalidId ∧ (x, D x) ∈ S) ∨
    ∃ a p, P x = p ∧ p ∈ pre ∧ rd tail a = some p ∧ rd head a = some x ∧ D x = D p + W a
  first : ∀ x, x < n → D x < infWeight → ∀ p pre1 pre2, P x = p → pre = pre1 ++ p :: pre2 → ∀ q ∈ pre1, ∀ a,
    rd tail a = some q → rd head a = some x → D x < D q + W a

/-- An element of a list that has been extended. -/
theorem split_snoc {α : Type} {l l1 l2 : List α} {x y : α} (h : l ++ [x] = l1 ++ y :: l2) :
    (l1 = l ∧ y = x) ∨ ∃ l3, l = l1 ++ y :: l3 := by
  rcases List.eq_nil_or_concat l2 with rfl | ⟨l3, z, rfl⟩
  · obtain ⟨h1, h2⟩ := List.append_inj' h rfl
    simp only [List.cons.injEq, and_true] at h2
    exact Or.inl ⟨h1.symm, h2.symm⟩
  · refine Or.inr ⟨l3, ?_⟩
    have h' : l ++ [x] = (l1 ++ y :: l3) ++ [z] := by rw [h]; simp
    exact (List.append_inj' h' rfl).1

theorem SInv.step {n : Nat} {c : Cch} {wv : List Nat} {W : Nat → Nat} (h : UpCtx n c wv W) {S : List (Nat × Nat)}
    {pre post : List Nat} {x : Nat} {D P D' P' : Nat → Nat} (hL : Topo c.parent (pre ++ x :: post))
    (hi : SInv n c.upTail c.upHead W S (pre ++ x :: post) pre D P) (hx : x < n)
    (g3 : ∀ y, D' y ≤ D y) (g4 : ∀ a y, rd c.upTail a = some x → rd c.upHead a = some y → D' y ≤ D x + W a)
    (g5 : ∀ y, (D' y = D y ∧ P' y = P y) ∨
        ∃ a, rd c.upTail a = some x ∧ rd c.upHead a = some y ∧ D' y = D x + W a ∧ D' y < D y ∧ P' y = x) :
    SInv n c.upTail c.upHead W S (pre ++ x :: post) (pre ++ [x]) D' P' := by
  have hsuf := hL.suffix
  have hpost : ∀ a y, rd c.upTail a = some x → rd c.upHead a = some y → y ∈ post := fun a y h1 h2 =>
    h.later x y post hsuf ⟨a, h1, h2⟩
  have hnd := hL.nodup
  have same : ∀ y ∈ pre ++ [x], D' y = D y := by
    intro y hy
    rcases g5 y with ⟨q, _⟩ | ⟨a, q1, q2, _⟩
    · exact q
    · have hyp := hpost a y q1 q2
      exfalso
      rw [show pre ++ x :: post = (pre ++ [x]) ++ post by simp] at hnd
      exact (List.nodup_append.1 hnd).2.2 y hy y hyp rfl
  refine ⟨fun y hy => Nat.le_trans (g3 y) (hi.le y hy), ?_, fun s d hs => Nat.le_trans (g3 s) (hi.src s d hs), ?_, ?_, ?_⟩
  · intro y hy hyL
    rcases g5 y with ⟨q, _⟩ | ⟨a, q1, q2, _⟩
    · rw [q]; exact hi.out y hy hyL
    · exfalso
      have := hpost a y q1 q2
      exact hyL (List.mem_append_right _ (List.mem_cons_of_mem _ this))
  · intro z hz a y ha hy
    rw [same z hz]
    rcases List.mem_append.1 hz with hz | hz
    · exact Nat.le_trans (g3 y) (hi.done z hz a y ha hy)
    · rw [List.mem_singleton] at hz
      subst hz
      exact g4 a y ha hy
  · intro y hy hlt
    rcases g5 y with ⟨q1, q2⟩ | ⟨a, q1, q2, q3, q4, q5⟩
    · rw [q1] at hlt ⊢
      rw [q2]
      rcases hi.lab y hy hlt with h1 | ⟨a, p, r1, r2, r3, r4, r5⟩
      · exact Or.inl h1
      · exact Or.inr ⟨a, p, r1, List.mem_append_left _ r2, r3, r4, by rw [same p (List.mem_append_left _ r2)]; exact r5⟩
    · exact Or.inr ⟨a, x, q5, by simp, q1, q2, by rw [same x (by simp)]; exact q3⟩
  · intro y hy hlt p pre1 pre2 hp hsplit q hq a haq hay
    have hxpre : x ∉ pre := fun hm => (List.nodup_append.1 hnd).2.2 x hm x (by simp) rfl
    have hqm : q ∈ pre ++ [x] := by rw [hsplit]; exact List.mem_append_left _ hq
    rw [same q hqm]
    rcases split_snoc hsplit with ⟨e1, e2⟩ | ⟨pre3, e⟩
    · subst e1
      rcases g5 y with ⟨q1, q2⟩ | ⟨a', q1, q2, q3, q4, q5⟩
      · exfalso
        rw [q1] at hlt
        rcases hi.lab y hy hlt with ⟨h1, _⟩ | ⟨_, p', r1, r2, _⟩
        · have := h.small
          have : x = invalidId := by rw [← e2, ← hp, q2]; exact h1
          omega
        · rw [← r1, ← q2, hp, e2] at r2
          exact hxpre r2
      · have := hi.done q hq a y haq hay
        omega
    · rcases g5 y with ⟨q1, q2⟩ | ⟨a', q1, q2, q3, q4, q5⟩
      · rw [q1] at hlt ⊢
        exact hi.first y hy hlt p pre1 pre3 (by rw [← q2]; exact hp) e q hq a haq hay
      · exact absurd (by rw [e, ← hp, q5]; simp) hxpre

/-- The whole search. -/
theorem search_spec {n : Nat} {c : Cch} {wv : List Nat} {W : Nat → Nat} (h : UpCtx n c wv W)
    {setPred : List Nat → Nat → Nat → Option (List Nat)} {PR : List Nat → (Nat → Nat) → Prop}
    (hset : ∀ p P y x, PR p P → y < n → ∃ p', setPred p y x = some p' ∧ PR p' (setAt P y x))
    {S : List (Nat × Nat)} {L d p : List Nat} {D P : Nat → Nat} (hL : Topo c.parent L) (hLn : ∀ x ∈ L, x < n)
    (hd : Is d n D) (hp : PR p P) (hi : SInv n c.upTail c.upHead W S L [] D P) :
    ∃ d' p' D' P', forEach L (d, p) (CchHalf.relaxOut c.upFirstOut c.upHead wv setPred) = some (d', p') ∧ Is d' n D' ∧
      PR p' P' ∧ SInv n c.upTail c.upHead W S L L D' P' := by
  obtain ⟨⟨d', p'⟩, e, D', P', g1, g2, g3⟩ := forEach_inv (f := CchHalf.relaxOut c.upFirstOut c.upHead wv setPred)
    (fun pre s => ∃ D' P', Is s.1 n D' ∧ PR s.2 P' ∧ SInv n c.upTail c.upHead W S L pre D' P') L [] (d, p)
    ⟨D, P, hd, hp, hi⟩
    (by
      rintro pre x post ⟨d, p⟩ hsplit _ ⟨D', P', g1, g2, g3⟩
      rw [List.nil_append] at hsplit
      have hx : x < n := hLn x (by rw [hsplit]; simp)
      obtain ⟨d', p', D'', P'', e, q1, q2, q3, q4, q5⟩ := relaxOut_spec h hset g1 g2 g3.le hx
      refine ⟨(d', p'), e, D'', P'', q1, q2, ?_⟩
      rw [hsplit] at hL g3 ⊢
      exact SInv.step h hL g3 hx q3 q4 q5)
  exact ⟨d', p', D', P', e, g1, g2, by simpa using g3⟩

/-- Labels are at most the lengths of upward walks. -/
theorem SInv.complete {n : Nat} {c : Cch} {wv : List Nat} {W : Nat → Nat} (h : UpCtx n c wv W) {R : ArcR}
    (hR : ∀ x y v, R x y v → ∃ a, rd c.upTail a = some x ∧ rd c.upHead a = some y ∧ W a ≤ v)
    {S : List (Nat × Nat)} {L : List Nat} {D P : Nat → Nat} (hi : SInv n c.upTail c.upHead W S L L D P) {u x l : Nat}
    (hw : RWalk R u x l) : ∀ k, u < n → D u ≤ k → D x ≤ k + l := by
  induction hw with
  | nil x => intro k _ hk; omega
  | @cons u y x w l ha hw ih =>
    intro k hu hk
    obtain ⟨a, h1, h2, h3⟩ := hR _ _ _ ha
    have hy := (h.up.up u y ⟨a, h1, h2⟩).2
    have hDy : D y ≤ k + w := by
      by_cases huL : u ∈ L
      · have := hi.done u huL a y h1 h2; omega
      · have := hi.out u hu huL
        have := hi.le y hy
        omega
    have := ih (k + w) hy hDy
    omega

/-- The path to a labelled node, downward from the node to the start node. -/
inductive UpChain (tail head : List Nat) (W : Nat → Nat) (S : List (Nat × Nat)) (D P : Nat → Nat) : Nat → List Nat → Nat → Prop
  | src {x : Nat} : P x = invalidId → (x, D x) ∈ S → UpChain tail head W S D P x [x] x
  | step {x p a z : Nat} {l : List Nat} : P x = p → p < x → rd tail a = some p → rd head a = some x → D x = D p + W a →
      UpChain tail head W S D P p l z → UpChain tail head W S D P x (x :: l) z

theorem SInv.chain {n : Nat} {c : Cch} {wv : List Nat} {W : Nat → Nat} (h : UpCtx n c wv W) {S : List (Nat × Nat)}
    {L pre : List Nat} {D P : Nat → Nat} (hi : SInv n c.upTail c.upHead W S L pre D P) :
    ∀ k x, x < k → x < n → D x < infWeight → ∃ l z, UpChain c.upTail c.upHead W S D P x l z := by
  intro k
  induction k with
  | zero => intro x hx; omega
  | succ k ih =>
    intro x hk hx hlt
    rcases hi.lab x hx hlt with ⟨h1, h2⟩ | ⟨a, p, h1, _, h3, h4, h5⟩
    · exact ⟨_, _, .src h1 h2⟩
    · have hpx := (h.up.up p x ⟨a, h3, h4⟩).1
      obtain ⟨l, z, hc⟩ := ih p (by omega) (by omega) (by omega)
      exact ⟨_, _, .step h1 hpx h3 h4 h5 hc⟩

theorem cchChain_spec {tail head : List Nat} {W : Nat → Nat} {S : List (Nat × Nat)} {D P : Nat → Nat} {n : Nat} (hn : n ≤ invalidId)
    {h : CchHalf} (hp : Is h.pred n P) {x z : Nat} {l : List Nat} (hc : UpChain tail head W S D P x l z) :
    ∀ fuel, x < n → x < fuel → h.chain fuel x = some (l, z) := by
  induction hc with
  | @src x h1 _ =>
    intro fuel hx hf
    obtain ⟨k, rfl⟩ : ∃ k, fuel = k + 1 := ⟨fuel - 1, by omega⟩
    simp [CchHalf.chain, hp.2 x hx, h1]
  | @step x p a z l h1 h2 _ _ _ _ ih =>
    intro fuel hx hf
    obtain ⟨k, rfl⟩ : ∃ k, fuel = k + 1 := ⟨fuel - 1, by omega⟩
    have hne : p ≠ invalidId := by omega
    simp [CchHalf.chain, hp.2 x hx, h1, hne, ih k (by omega) (by omega)]

/-! ### Meeting nodes -/

/-- The best meeting node among `done`. -/
structure Best (D E : Nat → Nat) (Ls done : List Nat) (best : Nat × Nat) : Prop where
  le : best.1 ≤ infWeight
  none_ : best.1 = infWeight → best.2 = invalidId
  some_ : best.1 < infWeight → best.2 ∈ done ∧ best.2 ∈ Ls ∧ best.1 = D best.2 + E best.2
  low : ∀ x ∈ done, x ∈ Ls → best.1 ≤ D x + E x
  first : best.1 < infWeight → ∀ l1 l2, done = l1 ++ best.2 :: l2 → ∀ x ∈ l1, x ∈ Ls → best.1 < D x + E x

theorem run_spec {n : Nat} {c : Cch} {wv : List Nat} {W : Nat → Nat} (h : UpCtx n c wv W)
    {S : List (Nat × Nat)} {Ls L d p : List Nat} {D P DF : Nat → Nat} (hL : Topo c.parent L) (hLn : ∀ x ∈ L, x < n)
    (hd : Is d n D) (hp : Is p n P) (hi : SInv n c.upTail c.upHead W S L [] D P)
    {f : CchHalf} (hf : Is f.dist n DF) (hfl : ∀ x, x < n → DF x ≤ infWeight) (hfs : Flags n f.inSpace Ls) :
    ∃ d' p' best D' P', forEach L (d, p, infWeight, invalidId) (CchHalf.meetStep c wv f) = some (d', p', best) ∧ Is d' n D' ∧
      Is p' n P' ∧ SInv n c.upTail c.upHead W S L L D' P' ∧ Best DF D' Ls L best := by
  obtain ⟨⟨d', p', best⟩, e, D', P', g1, g2, g3, g4⟩ := forEach_inv (f := CchHalf.meetStep c wv f)
    (fun pre s => ∃ D' P', Is s.1 n D' ∧ Is s.2.1 n P' ∧ SInv n c.upTail c.upHead W S L pre D' P' ∧ Best DF D' Ls pre s.2.2)
    L [] (d, p, infWeight, invalidId)
    ⟨D, P, hd, hp, hi, ⟨Nat.le_refl _, fun _ => rfl, fun h => absurd h (Nat.lt_irrefl _), by simp,
      fun h => absurd h (Nat.lt_irrefl _)⟩⟩
    (by
      rintro pre x post ⟨d, p, best⟩ hsplit _ ⟨D', P', g1, g2, g3, g4⟩
      rw [List.nil_append] at hsplit
      have hx : x < n := hLn x (by rw [hsplit]; simp)
      obtain ⟨d', p', D'', P'', e, q1, q2, q3, q4, q5⟩ := relaxOut_spec h (PR := fun p P => Is p n P)
        (fun p P y x hp hy => hp.wr hy x) g1 g2 g3.le hx
      rw [hsplit] at hL
      have hnew : SInv n c.upTail c.upHead W S L (pre ++ [x]) D'' P'' := by
        rw [hsplit] at g3 ⊢
        exact SInv.step h hL g3 hx q3 q4 q5
      have hsame : ∀ y ∈ pre, D'' y = D' y := by
        intro y hy
        rcases q5 y with ⟨q, _⟩ | ⟨a, r1, r2, _⟩
        · exact q
        · have hyp := h.later x y post hL.suffix ⟨a, r1, r2⟩
          exact absurd rfl ((List.nodup_append.1 hL.nodup).2.2 y hy y (List.mem_cons_of_mem _ hyp))
      have hb : Best DF D'' Ls pre best := ⟨g4.le, g4.none_, fun hlt => by
          obtain ⟨r1, r2, r3⟩ := g4.some_ hlt
          exact ⟨r1, r2, by rw [hsame _ r1]; exact r3⟩, fun y hy hyL => by rw [hsame y hy]; exact g4.low y hy hyL,
          fun hlt l1 l2 hl y hy hyL => by
            rw [hsame y (by rw [hl]; exact List.mem_append_left _ hy)]; exact g4.first hlt l1 l2 hl y hy hyL⟩
      have hadd : add32 (DF x) (D'' x) = DF x + D'' x := add32_le (hfl x hx) (hnew.le x hx)
      have hxpre : x ∉ pre := fun hm => (List.nodup_append.1 hL.nodup).2.2 x hm x (by simp) rfl
      have hold : best.1 < infWeight → ∀ l1 l2, pre ++ [x] = l1 ++ best.2 :: l2 → ∀ y ∈ l1, y ∈ Ls → best.1 < DF y + D'' y := by
        intro hlt l1 l2 hl y hy hyL
        rcases split_snoc hl with ⟨_, e2⟩ | ⟨l3, e3⟩
        · exact absurd (e2 ▸ (hb.some_ hlt).1) hxpre
        · exact hb.first hlt l1 l3 e3 y hy hyL
      have hbest : ∃ best', f.meet d' best x = some best' ∧ Best DF D'' Ls (pre ++ [x]) best' := by
        unfold CchHalf.meet
        simp only [hfs.2 x hx, hf.2 x hx, q1.2 x hx, hadd, Option.bind_eq_bind, Option.bind_some, decide_eq_true_eq]
        by_cases hxs : x ∈ Ls
        · rw [if_pos hxs]
          by_cases hlt : DF x + D'' x < best.1
          · rw [if_pos hlt]
            refine ⟨_, rfl, ?_, ?_, ?_, ?_, ?_⟩
            · have := hb.le; show DF x + D'' x ≤ infWeight; omega
            · intro hc
              have hc' : DF x + D'' x = infWeight := hc
              have := hb.le; omega
            · intro _; exact ⟨by simp, hxs, rfl⟩
            · intro y hy hyL
              show DF x + D'' x ≤ _
              rcases List.mem_append.1 hy with hy | hy
              · have := hb.low y hy hyL; omega
              · rw [List.mem_singleton] at hy; subst hy; exact Nat.le_refl _
            · intro _ l1 l2 hl y hy hyL
              show DF x + D'' x < _
              have hyp : y ∈ pre := by
                rcases split_snoc hl with ⟨e1, _⟩ | ⟨l3, e3⟩
                · rw [← e1]; exact hy
                · rw [e3]; exact List.mem_append_left _ hy
              have := hb.low y hyp hyL; omega
          · rw [if_neg hlt]
            refine ⟨_, rfl, hb.le, hb.none_, fun hlt => ?_, ?_, hold⟩
            · obtain ⟨r1, r2, r3⟩ := hb.some_ hlt
              exact ⟨List.mem_append_left _ r1, r2, r3⟩
            · intro y hy hyL
              rcases List.mem_append.1 hy with hy | hy
              · exact hb.low y hy hyL
              · rw [List.mem_singleton] at hy; subst hy; omega
        · rw [if_neg hxs]
          refine ⟨_, rfl, hb.le, hb.none_, fun hlt => ?_, ?_, hold⟩
          · obtain ⟨r1, r2, r3⟩ := hb.some_ hlt
            exact ⟨List.mem_append_left _ r1, r2, r3⟩
          · intro y hy hyL
            rcases List.mem_append.1 hy with hy | hy
            · exact hb.low y hy hyL
            · rw [List.mem_singleton] at hy; subst hy; exact absurd hyL hxs
      obtain ⟨best', e2, hb'⟩ := hbest
      refine ⟨(d', p', best'), ?_, D'', P'', q1, q2, hnew, hb'⟩
      unfold CchHalf.meetStep
      simp only [e, e2, Option.bind_eq_bind, Option.bind_some])
  exact ⟨d', p', best, D', P', e, g1, g2, by simpa using g3, by simpa using g4⟩

end RK
