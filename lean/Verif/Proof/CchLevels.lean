import Verif.Model.CchParallel
import Verif.Proof.CchMetric
import Verif.Proof.GraphUtil
/-! Helper lemmas for the levels of the parallel customization. -/
namespace RK
open Spec

theorem countP_erase {p q : Nat → Bool} {d0 : Nat} (hp : p d0 = true) (hq : q d0 = false) (hpq : ∀ d, d ≠ d0 → q d = p d) :
    ∀ {l : List Nat}, l.Nodup → d0 ∈ l → l.countP p = l.countP q + 1
  | [], _, h => by simp at h
  | d :: l, hn, hm => by
    rw [List.nodup_cons] at hn
    rw [List.countP_cons, List.countP_cons]
    by_cases hd : d = d0
    · subst hd
      have : l.countP q = l.countP p := by
        apply List.countP_congr
        intro e he
        rw [hpq e (by rintro rfl; exact hn.1 he)]
      simp [hp, hq, this]
    · have hm' : d0 ∈ l := by
        rcases List.mem_cons.1 hm with h | h
        · exact absurd h.symm hd
        · exact h
      rw [countP_erase hp hq hpq hn.2 hm', hpq d hd]
      omega

theorem sub32_of_le {a b : Nat} (h : b ≤ a) (ha : a < 2 ^ 32) : sub32 a b = a - b := by
  unfold sub32 u32; omega

/-- The number of arcs into `y` that are not marked. -/
def openIn (c : Cch) (H : Nat → Bool) (y : Nat) : Nat :=
  (List.range' (fn c.downFirstOut y) (fn c.downFirstOut (y + 1) - fn c.downFirstOut y)).countP fun d => !H (fn c.downToUp d)

section
variable {n : Nat} {c : Cch}

theorem openIn_row (g : c.GraphOk n) {y : Nat} (hy : y < n) : ∃ b e, rd c.downFirstOut y = some b ∧
    rd c.downFirstOut (y + 1) = some e ∧ b ≤ e ∧ e ≤ c.upHead.length ∧
    (∀ H, openIn c H y = (List.range' b (e - b)).countP fun d => !H (fn c.downToUp d)) ∧
    (∀ d, d ∈ List.range' b (e - b) → ∃ a x, rd c.downToUp d = some a ∧ rd c.upTail a = some x ∧ rd c.upHead a = some y) ∧
    ∀ a x, rd c.upTail a = some x → rd c.upHead a = some y → ∃ d, d ∈ List.range' b (e - b) ∧ rd c.downToUp d = some a := by
  obtain ⟨b, e, e1, e2, h1, h2, _, h3, h4⟩ := g.downRow hy
  refine ⟨b, e, e1, e2, h1, h2, ?_, ?_, ?_⟩
  · intro H
    unfold openIn
    rw [fn_of_rd e1, fn_of_rd e2]
  · intro d hd
    rw [List.mem_range'_1] at hd
    obtain ⟨a, x, q1, q2, q3, q4⟩ := h3 d hd.1 (by omega)
    exact ⟨a, x, q1, q3, q4⟩
  · intro a x q1 q2
    obtain ⟨d, q3, q4, q5, _⟩ := h4 a x q1 q2
    exact ⟨d, by rw [List.mem_range'_1]; omega, q5⟩

theorem openIn_congr (g : c.GraphOk n) {y : Nat} (hy : y < n) {H H' : Nat → Bool}
    (h : ∀ a x, rd c.upTail a = some x → rd c.upHead a = some y → H a = H' a) : openIn c H y = openIn c H' y := by
  obtain ⟨b, e, _, _, _, _, h1, h2, _⟩ := openIn_row g hy
  rw [h1, h1]
  apply List.countP_congr
  intro d hd
  obtain ⟨a, x, q1, q2, q3⟩ := h2 d hd
  rw [fn_of_rd q1, h a x q2 q3]

theorem openIn_zero (g : c.GraphOk n) {y : Nat} (hy : y < n) {H : Nat → Bool} :
    openIn c H y = 0 ↔ ∀ a x, rd c.upTail a = some x → rd c.upHead a = some y → H a = true := by
  obtain ⟨b, e, _, _, _, _, h1, h2, h3⟩ := openIn_row g hy
  rw [h1, List.countP_eq_zero]
  constructor
  · intro h a x q1 q2
    obtain ⟨d, q3, q4⟩ := h3 a x q1 q2
    have := h d q3
    rw [fn_of_rd q4] at this
    simpa using this
  · intro h d hd
    obtain ⟨a, x, q1, q2, q3⟩ := h2 d hd
    rw [fn_of_rd q1, h a x q2 q3]
    simp

theorem openIn_handle (g : c.GraphOk n) {a x y : Nat} (hx : rd c.upTail a = some x) (hy : rd c.upHead a = some y)
    {H H' : Nat → Bool} (hH : H a = false) (hH' : ∀ i x' y', rd c.upTail i = some x' → rd c.upHead i = some y' →
      H' i = (H i || decide (i = a))) :
    openIn c H y = openIn c H' y + 1 ∧ ∀ y', y' < n → y' ≠ y → openIn c H' y' = openIn c H y' := by
  have hyn := (g.up.up x y ⟨a, hx, hy⟩).2
  constructor
  · rw [openIn_congr g hyn (H := H') (H' := fun i => H i || decide (i = a)) (fun i x' q1 q2 => hH' i x' y q1 q2)]
    obtain ⟨b, e, _, _, _, _, h1, h2, h3⟩ := openIn_row g hyn
    rw [h1, h1]
    obtain ⟨d0, q3, q4⟩ := h3 a x hx hy
    have step : (List.range' b (e - b)).countP (fun d => !(H (fn c.downToUp d) || decide (fn c.downToUp d = a))) =
        (List.range' b (e - b)).countP (fun d => !H (fn c.downToUp d) && !decide (d = d0)) := by
      apply List.countP_congr
      intro d hd
      obtain ⟨a', x', q5, q6, q7⟩ := h2 d hd
      rw [fn_of_rd q5]
      have : (a' = a) ↔ (d = d0) := by
        constructor
        · rintro rfl; exact g.toUp_inj q5 q4
        · rintro rfl; exact rd_congr_some q5 q4
      simp [this]
    rw [step]
    apply countP_erase (d0 := d0)
    · simp [fn_of_rd q4, hH]
    · simp
    · intro d hd; simp [hd]
    · exact List.nodup_range'
    · exact q3
  · intro y' hy' hne
    apply openIn_congr g hy'
    intro i x' q1 q2
    rw [hH' i x' y' q1 q2]
    have : i ≠ a := by rintro rfl; exact hne (rd_congr_some q2 hy)
    simp [this]

theorem pushBounded_spec {l : List Nat} {x : Nat} (h : (l ++ [x]).Nodup) (hlt : ∀ y ∈ l ++ [x], y < n) :
    pushBounded n l x = some (l ++ [x]) := by
  have : (l ++ [x]).length ≤ n := by
    have := (h.subperm (l₂ := List.range n) (fun y hy => List.mem_range.2 (hlt y hy))).length_le
    simpa using this
  unfold pushBounded
  rw [if_pos (by simp at this; omega)]

/-- The state of the level computation: `Dn` are the nodes that have their level, `Z` the nodes that get level `L`
next and `Nx` the nodes of the level after. -/
structure KInv (n : Nat) (c : Cch) (lock level Dn Z Nx : List Nat) (L : Nat) : Prop where
  lenLock : lock.length = n
  lenLev : level.length = n
  nodup : (Dn ++ Z ++ Nx).Nodup
  lt : ∀ y ∈ Dn ++ Z ++ Nx, y < n
  lock : ∀ y, y < n → rd lock y = some (openIn c (fun a => decide (fn c.upTail a ∈ Dn)) y)
  zero : ∀ y, y < n → (openIn c (fun a => decide (fn c.upTail a ∈ Dn)) y = 0 ↔ y ∈ Dn ++ Z ++ Nx)
  lev : ∀ y ∈ Dn, fn level y ≤ L
  mono : ∀ a x y, rd c.upTail a = some x → rd c.upHead a = some y → y ∈ Dn → fn level x < fn level y
  pre : ∀ a x y, rd c.upTail a = some x → rd c.upHead a = some y → y ∈ Z → fn level x < L

theorem KInv.pred (g : c.GraphOk n) {lock level Dn Z Nx : List Nat} {L : Nat} (k : KInv n c lock level Dn Z Nx L) {a x y : Nat}
    (hx : rd c.upTail a = some x) (hy : rd c.upHead a = some y) (h : y ∈ Dn ++ Z ++ Nx) : x ∈ Dn := by
  have hyn := (g.up.up x y ⟨a, hx, hy⟩).2
  have := (openIn_zero g hyn).1 ((k.zero y hyn).2 h) a x hx hy
  rw [fn_of_rd hx] at this
  simpa using this

theorem levelNode_spec (g : c.GraphOk n) (hN : c.upTail.length < 2 ^ 32) {lock level Dn Z Nx : List Nat} {x L : Nat}
    (k : KInv n c lock level Dn (x :: Z) Nx L) :
    ∃ s, levelNode c n L ⟨lock, level, Nx⟩ x = some s ∧ KInv n c s.lock s.level (Dn ++ [x]) Z s.next L := by
  have hs := g.up.sorted.pairwise
  have hlen := g.up.sorted.1
  have hxn : x < n := k.lt x (by simp)
  have hnd := k.nodup
  have hxD : x ∉ Dn := by
    intro h
    rw [List.append_assoc, List.nodup_append] at hnd
    exact hnd.2.2 x h x (by simp) rfl
  have rowx : ∀ a, rd c.upTail a = some x ↔ cLt c.upTail x ≤ a ∧ a < cLt c.upTail (x + 1) := fun a => cLt_range hs
  have hpre : ∀ a y, rd c.upTail a = some x → rd c.upHead a = some y → y ∉ Dn ++ (x :: Z) ++ Nx := by
    intro a y h1 h2 h3
    exact hxD (k.pred g h1 h2 h3)
  let Hk : Nat → Nat → Bool := fun j a => decide (fn c.upTail a ∈ Dn) || (decide (fn c.upTail a = x) && decide (a < j))
  obtain ⟨⟨lock', next'⟩, e, h1, h2, h3, h4, h5⟩ := forRange_inv (lo := cLt c.upTail x) (hi := cLt c.upTail (x + 1))
    (s := (lock, Nx)) (f := unlockArc c n)
    (fun j s => s.1.length = n ∧ (Dn ++ (x :: Z) ++ s.2).Nodup ∧ (∀ y ∈ Dn ++ (x :: Z) ++ s.2, y < n) ∧
      (∀ y, y < n → rd s.1 y = some (openIn c (Hk j) y)) ∧
      ∀ y, y < n → (openIn c (Hk j) y = 0 ↔ y ∈ Dn ++ (x :: Z) ++ s.2)) (cLt_mono _ (by omega)) (by
      have hH : ∀ y, y < n → openIn c (Hk (cLt c.upTail x)) y = openIn c (fun a => decide (fn c.upTail a ∈ Dn)) y := by
        intro y hy
        apply openIn_congr g hy
        intro a x' q1 _
        show (_ || _) = _
        have : ¬ (fn c.upTail a = x ∧ a < cLt c.upTail x) := by
          rintro ⟨r1, r2⟩
          rw [fn_of_rd q1] at r1
          subst r1
          have := (rowx a).1 q1
          omega
        by_cases r : fn c.upTail a = x
        · have r2 : ¬ a < cLt c.upTail x := fun h => this ⟨r, h⟩
          simp [r2]
        · simp [r]
      refine ⟨k.lenLock, k.nodup, k.lt, ?_, ?_⟩
      · intro y hy; rw [hH y hy]; exact k.lock y hy
      · intro y hy; rw [hH y hy]; exact k.zero y hy) (by
      rintro j ⟨lk, nx⟩ hj1 hj2 ⟨g1, g2, g3, g4, g5⟩
      have hjx := (rowx j).2 ⟨hj1, hj2⟩
      obtain ⟨y, hy⟩ := rd_isSome (v := c.upHead) (i := j) (by have := rd_some_lt hjx; omega)
      have hyn := (g.up.up x y ⟨j, hjx, hy⟩).2
      have hHj : Hk j j = false := by
        show (_ || _) = false
        rw [fn_of_rd hjx]
        simp [hxD]
      have hHj' : ∀ i x' y', rd c.upTail i = some x' → rd c.upHead i = some y' → Hk (j + 1) i = (Hk j i || decide (i = j)) := by
        intro i x' y' q1 _
        show (_ || _) = ((_ || _) || _)
        rw [fn_of_rd q1]
        by_cases r : i = j
        · subst r
          have : x' = x := rd_congr_some q1 hjx
          simp [this]
        · have : i < j + 1 ↔ i < j := by omega
          simp [r, this]
      obtain ⟨o1, o2⟩ := openIn_handle g hjx hy hHj hHj'
      have g4y := g4 y hyn
      have hb : openIn c (Hk j) y ≤ c.upTail.length := by
        obtain ⟨b, e, _, _, r1, r2, r3, _⟩ := openIn_row g hyn
        rw [r3]
        refine Nat.le_trans List.countP_le_length ?_
        rw [List.length_range']
        omega
      have g1' : lk.length = n := g1
      have hsub : sub32 (openIn c (Hk j) y) 1 = openIn c (Hk (j + 1)) y := by
        rw [sub32_of_le (by omega) (by omega)]; omega
      unfold unlockArc
      simp only [hy, g4y, Option.bind_eq_bind, Option.bind_some]
      rw [hsub]
      unfold setLock
      simp only [wr_lt (show y < lk.length by omega), Option.bind_eq_bind, Option.bind_some]
      have hlock' : ∀ y', y' < n → rd (lk.set y (openIn c (Hk (j + 1)) y)) y' = some (openIn c (Hk (j + 1)) y') := by
        intro y' hy'
        rw [rd_set (by omega)]
        split
        · rename_i h; rw [h]
        · rename_i h
          rw [o2 y' hy' h]
          exact g4 y' hy'
      have hzero' : ∀ y', y' < n → y' ≠ y → (openIn c (Hk (j + 1)) y' = 0 ↔ y' ∈ Dn ++ (x :: Z) ++ nx) := by
        intro y' hy' hne
        rw [o2 y' hy' hne]
        exact g5 y' hy'
      have hynot : y ∉ Dn ++ (x :: Z) ++ nx := by
        intro h
        have := (g5 y hyn).2 h
        omega
      by_cases h0 : openIn c (Hk (j + 1)) y = 0
      · rw [if_pos h0]
        have hnd' : (Dn ++ (x :: Z) ++ (nx ++ [y])).Nodup := by
          rw [← List.append_assoc, List.nodup_append]
          refine ⟨g2, by simp, ?_⟩
          intro a ha b hb hab
          rw [List.mem_singleton] at hb
          subst hb; subst hab
          exact hynot ha
        have hlt' : ∀ z ∈ Dn ++ (x :: Z) ++ (nx ++ [y]), z < n := by
          intro z hz
          rw [← List.append_assoc, List.mem_append, List.mem_singleton] at hz
          rcases hz with hz | hz
          · exact g3 z hz
          · omega
        rw [pushBounded_spec (n := n) (List.nodup_append.1 hnd').2.1 (fun z hz => hlt' z (List.mem_append_right _ hz))]
        refine ⟨_, rfl, by simpa using g1', hnd', hlt', hlock', ?_⟩
        intro y' hy'
        show _ ↔ y' ∈ Dn ++ (x :: Z) ++ (nx ++ [y])
        rw [← List.append_assoc, List.mem_append, List.mem_singleton]
        by_cases hne : y' = y
        · subst hne; simp [h0]
        · rw [hzero' y' hy' hne]; simp [hne]
      · rw [if_neg h0]
        refine ⟨_, rfl, by simpa using g1', g2, g3, hlock', ?_⟩
        intro y' hy'
        by_cases hne : y' = y
        · subst hne
          exact ⟨fun h => absurd h h0, fun h => absurd h hynot⟩
        · exact hzero' y' hy' hne)
  unfold levelNode
  have hll := k.lenLev
  simp only [wr_lt (show x < level.length by omega), g.up.idx.2 x (by omega), g.up.idx.2 (x + 1) (by omega), e,
    Option.bind_eq_bind, Option.bind_some]
  have hHe : ∀ y, y < n → openIn c (Hk (cLt c.upTail (x + 1))) y = openIn c (fun a => decide (fn c.upTail a ∈ Dn ++ [x])) y := by
    intro y hy
    apply openIn_congr g hy
    intro a x' q1 _
    show (_ || _) = _
    rw [fn_of_rd q1]
    by_cases r : x' = x
    · subst r
      have := (rowx a).1 q1
      simp [this.2]
    · simp [r]
  have hassoc : ∀ M : List Nat, Dn ++ [x] ++ Z ++ M = Dn ++ (x :: Z) ++ M := by intro M; simp
  have hset : ∀ z, fn (level.set x L) z = if z = x then L else fn level z := fun z => fn_set (by omega)
  have inD : ∀ {a u y}, rd c.upTail a = some u → rd c.upHead a = some y → y ∈ Dn ++ (x :: Z) → u ∈ Dn ∧ u ≠ x := by
    intro a u y q1 q2 h
    have := k.pred g q1 q2 (List.mem_append_left _ h)
    exact ⟨this, by rintro rfl; exact hxD this⟩
  refine ⟨_, rfl, h1, by simpa using hll, by rw [hassoc]; exact h2, by rw [hassoc]; exact h3, ?_, ?_, ?_, ?_, ?_⟩
  · intro y hy; rw [← hHe y hy]; exact h4 y hy
  · intro y hy; rw [← hHe y hy, hassoc]; exact h5 y hy
  · intro y hy
    show fn (level.set x L) y ≤ L
    rw [hset]
    split
    · omega
    · rename_i h
      rcases List.mem_append.1 hy with hy | hy
      · exact k.lev y hy
      · simp at hy; exact absurd hy h
  · intro a u y q1 q2 hy
    show fn (level.set x L) u < fn (level.set x L) y
    have hy' : y ∈ Dn ++ (x :: Z) := by
      rcases List.mem_append.1 hy with hy | hy
      · exact List.mem_append_left _ hy
      · simp at hy; simp [hy]
    obtain ⟨_, hu⟩ := inD q1 q2 hy'
    rw [hset, hset, if_neg hu]
    split
    · rename_i h
      subst h
      exact k.pre a u y q1 q2 (by simp)
    · rename_i h
      rcases List.mem_append.1 hy with hy | hy
      · exact k.mono a u y q1 q2 hy
      · simp at hy; exact absurd hy h
  · intro a u y q1 q2 hy
    show fn (level.set x L) u < L
    obtain ⟨_, hu⟩ := inD q1 q2 (List.mem_append_right _ (List.mem_cons_of_mem _ hy))
    rw [hset, if_neg hu]
    exact k.pre a u y q1 q2 (List.mem_cons_of_mem _ hy)

theorem levelRound_spec (g : c.GraphOk n) (hN : c.upTail.length < 2 ^ 32) {L : Nat} : ∀ (Z : List Nat) {lock level Dn Nx : List Nat},
    KInv n c lock level Dn Z Nx L →
    ∃ s, forEach Z ⟨lock, level, Nx⟩ (levelNode c n L) = some s ∧ KInv n c s.lock s.level (Dn ++ Z) [] s.next L
  | [], lock, level, Dn, Nx, k => ⟨⟨lock, level, Nx⟩, rfl, by simpa using k⟩
  | x :: Z, lock, level, Dn, Nx, k => by
    obtain ⟨s, e, k'⟩ := levelNode_spec g hN k
    obtain ⟨s', e', k''⟩ := levelRound_spec g hN Z k'
    refine ⟨s', ?_, by simpa using k''⟩
    show (levelNode c n L ⟨lock, level, Nx⟩ x).bind _ = _
    rw [e]
    exact e'

/-- A level function that increases along every arc. -/
structure LevelsOk (n : Nat) (c : Cch) (level : List Nat) (cnt : Nat) : Prop where
  len : level.length = n
  lt : ∀ x, x < n → fn level x < cnt
  mono : ∀ a x y, rd c.upTail a = some x → rd c.upHead a = some y → fn level x < fn level y

theorem levelLoop_spec (g : c.GraphOk n) (hN : c.upTail.length < 2 ^ 32) : ∀ (fuel : Nat) {lock level Dn Z : List Nat} {L : Nat},
    KInv n c lock level Dn Z [] L → (∀ y ∈ Dn, fn level y < L) → n < fuel + Dn.length →
    ∃ level' cnt, levelLoop c n fuel lock level Z L = some (level', cnt) ∧ LevelsOk n c level' cnt
  | 0, lock, level, Dn, Z, L, k, hlt, hf => by
    have := (k.nodup.subperm (l₂ := List.range n) (fun y hy => List.mem_range.2 (k.lt y hy))).length_le
    simp at this
    omega
  | fuel + 1, lock, level, Dn, Z, L, k, hlt, hf => by
    unfold levelLoop
    by_cases hZ : Z.length ≠ 0
    · rw [if_pos hZ]
      obtain ⟨s, e, k'⟩ := levelRound_spec g hN Z k
      simp only [e, Option.bind_eq_bind, Option.bind_some]
      apply levelLoop_spec g hN fuel (Dn := Dn ++ Z)
      · refine ⟨k'.lenLock, k'.lenLev, by simpa using k'.nodup, by simpa using k'.lt, k'.lock, by simpa using k'.zero, ?_, k'.mono, ?_⟩
        · intro y hy
          have := k'.lev y hy
          omega
        · intro a x y q1 q2 hy
          have := k'.lev x (k'.pred g q1 q2 (by simp [hy]))
          omega
      · intro y hy
        have := k'.lev y hy
        omega
      · simp
        omega
    · rw [if_neg hZ]
      have hZ' : Z = [] := by
        cases Z with
        | nil => rfl
        | cons _ _ => simp at hZ
      subst hZ'
      have hall : ∀ y, y < n → y ∈ Dn := by
        intro y
        induction y using Nat.strongRecOn with
        | _ y ih =>
          intro hy
          have := (k.zero y hy).1 ((openIn_zero g hy).2 (by
            intro a x q1 q2
            rw [fn_of_rd q1]
            have := (g.up.up x y ⟨a, q1, q2⟩).1
            simp [ih x this (by omega)]))
          simpa using this
      refine ⟨level, L, rfl, k.lenLev, fun x hx => hlt x (hall x hx), ?_⟩
      intro a x y q1 q2
      exact k.mono a x y q1 q2 (hall y (g.up.up x y ⟨a, q1, q2⟩).2)

theorem computeLevels_spec (g : c.GraphOk n) (hn : c.nodeCount = n) (hN : c.upTail.length < 2 ^ 32) :
    ∃ level cnt, computeLevels c = some (level, cnt) ∧ LevelsOk n c level cnt := by
  have hlen := g.up.sorted.1
  have key : ∀ y, y < n → ∃ b e, rd c.downFirstOut y = some b ∧ rd c.downFirstOut (y + 1) = some e ∧
      sub32 e b = openIn c (fun _ => false) y := by
    intro y hy
    obtain ⟨b, e, e1, e2, h1, h2, h3, _⟩ := openIn_row g hy
    refine ⟨b, e, e1, e2, ?_⟩
    rw [h3]
    have : (List.range' b (e - b)).countP (fun _ => !false) = e - b := by
      rw [show (fun _ : Nat => !false) = fun _ => true from rfl, List.countP_true, List.length_range']
    rw [this]
    exact sub32_of_le h1 (by omega)
  obtain ⟨⟨lock, Z⟩, e, h1, h2, h3, h4, h5, h6⟩ := forRange_inv (lo := 0) (hi := n) (s := (List.replicate n 0, ([] : List Nat)))
    (f := initLock c n)
    (fun k s => s.1.length = n ∧ s.2.Nodup ∧ (∀ y ∈ s.2, y < n) ∧
      (∀ y, y < k → rd s.1 y = some (openIn c (fun _ => false) y)) ∧
      (∀ y ∈ s.2, y < k) ∧ ∀ y, y < k → (openIn c (fun _ => false) y = 0 ↔ y ∈ s.2)) (Nat.zero_le _)
    ⟨by simp, by simp, by simp, by simp, by simp, by simp⟩ (by
      rintro x ⟨lk, z⟩ _ hx ⟨g1, g2, g3, g4, g5, g6⟩
      obtain ⟨b, e, e1, e2, hk⟩ := key x hx
      have g1' : lk.length = n := g1
      unfold initLock
      simp only [e1, e2, Option.bind_eq_bind, Option.bind_some]
      rw [hk]
      unfold setLock
      simp only [wr_lt (show x < lk.length by omega), Option.bind_eq_bind, Option.bind_some]
      have hlock' : ∀ y, y < x + 1 → rd (lk.set x (openIn c (fun _ => false) x)) y = some (openIn c (fun _ => false) y) := by
        intro y hy
        rw [rd_set (by omega)]
        split
        · rename_i h; rw [h]
        · exact g4 y (by omega)
      have hxz : x ∉ z := fun h => by have := g5 x h; omega
      by_cases h0 : openIn c (fun _ => false) x = 0
      · rw [if_pos h0]
        have hnd' : (z ++ [x]).Nodup := by
          rw [List.nodup_append]
          refine ⟨g2, by simp, ?_⟩
          intro a ha b hb hab
          rw [List.mem_singleton] at hb
          subst hb; subst hab
          exact hxz ha
        have hlt' : ∀ y ∈ z ++ [x], y < n := by
          intro y hy
          rw [List.mem_append, List.mem_singleton] at hy
          rcases hy with hy | hy
          · exact g3 y hy
          · omega
        rw [pushBounded_spec hnd' hlt']
        refine ⟨_, rfl, by simpa using g1', hnd', hlt', hlock', ?_, ?_⟩
        · intro y hy
          rw [List.mem_append, List.mem_singleton] at hy
          rcases hy with hy | hy
          · have := g5 y hy; omega
          · omega
        · intro y hy
          show _ ↔ y ∈ z ++ [x]
          rw [List.mem_append, List.mem_singleton]
          by_cases hyx : y = x
          · subst hyx; simp [h0]
          · rw [g6 y (by omega)]; simp [hyx]
      · rw [if_neg h0]
        refine ⟨_, rfl, by simpa using g1', g2, g3, hlock', ?_, ?_⟩
        · intro y hy; have := g5 y hy; omega
        · intro y hy
          by_cases hyx : y = x
          · subst hyx; exact ⟨fun h => absurd h h0, fun h => absurd h hxz⟩
          · exact g6 y (by omega))
  unfold computeLevels
  simp only [hn, e, Option.bind_eq_bind, Option.bind_some]
  have hnil : (fun a => decide (fn c.upTail a ∈ ([] : List Nat))) = fun _ => false := by funext a; simp
  refine levelLoop_spec g hN (n + 1) (Dn := []) (Z := Z) ⟨h1, by simp, by simpa using h2, by simpa using h3, ?_, ?_, by simp, by simp, ?_⟩
    (by simp) (by simp)
  · rw [hnil]; exact h4
  · rw [hnil]; simpa using h6
  · intro a x y q1 q2 hy
    have hyn := (g.up.up x y ⟨a, q1, q2⟩).2
    have := (openIn_zero g hyn).1 ((h6 y hyn).2 hy) a x q1 q2
    cases this

/-! ### The order of the arcs -/

/-- The arcs `E` have been placed. -/
structure Placed (c : Cch) (level : List Nat) (s : Nat × List Nat × List Nat) (E : List Nat) : Prop where
  cnt : s.1 = E.length
  len1 : s.2.1.length = c.upTail.length
  len2 : s.2.2.length = c.upTail.length
  nodup : E.Nodup
  lt : ∀ a ∈ E, a < c.upTail.length
  at_ : ∀ i a, rd E i = some a → rd s.2.2 i = some a ∧ rd s.2.1 i = some (fn level (fn c.upTail a))
  sorted : E.Pairwise (fun a b => fn level (fn c.upTail a) ≤ fn level (fn c.upTail b))

theorem Placed.add {level : List Nat} {s : Nat × List Nat × List Nat} {E : List Nat} (h : Placed c level s E) {q x : Nat}
    (hx : rd c.upTail q = some x) (hq : q ∉ E) (hle : ∀ a ∈ E, fn level (fn c.upTail a) ≤ fn level x) :
    ∃ s', placeArc (fn level x) s q = some s' ∧ Placed c level s' (E ++ [q]) := by
  have hnd : (E ++ [q]).Nodup := by
    rw [List.nodup_append]
    refine ⟨h.nodup, by simp, ?_⟩
    intro a ha b hb hab
    rw [List.mem_singleton] at hb
    subst hb; subst hab
    exact hq ha
  have hlt : ∀ a ∈ E ++ [q], a < c.upTail.length := by
    intro a ha
    rw [List.mem_append, List.mem_singleton] at ha
    rcases ha with ha | rfl
    · exact h.lt a ha
    · exact rd_some_lt hx
  have hle' : (E ++ [q]).length ≤ c.upTail.length := by
    have := (hnd.subperm (l₂ := List.range c.upTail.length) (fun y hy => List.mem_range.2 (hlt y hy))).length_le
    simpa using this
  simp only [List.length_append, List.length_singleton] at hle'
  have h1 := h.len1
  have h2 := h.len2
  have hc := h.cnt
  unfold placeArc
  simp only [wr_lt (show s.1 < s.2.1.length by omega), wr_lt (show s.1 < s.2.2.length by omega), Option.bind_eq_bind, Option.bind_some]
  refine ⟨_, rfl, ?_⟩
  refine ⟨by simp [hc], by simpa using h1, by simpa using h2, hnd, hlt, ?_, ?_⟩
  · intro i a hi
    show rd (s.2.2.set s.1 q) i = _ ∧ rd (s.2.1.set s.1 _) i = _
    rw [rd_set (by omega), rd_set (by omega)]
    by_cases hi' : i = s.1
    · rw [if_pos hi', if_pos hi']
      have : a = q := by
        have e : rd (E ++ [q]) i = some q := by unfold rd; rw [hi', hc]; simp
        exact rd_congr_some hi e
      subst this
      exact ⟨rfl, by rw [fn_of_rd hx]⟩
    · rw [if_neg hi', if_neg hi']
      have hlt' := rd_some_lt hi
      simp only [List.length_append, List.length_singleton] at hlt'
      apply h.at_ i a
      unfold rd at hi ⊢
      rw [List.getElem?_append_left (by omega)] at hi
      exact hi
  · rw [List.pairwise_append]
    refine ⟨h.sorted, by simp, ?_⟩
    intro a ha b hb
    rw [List.mem_singleton] at hb
    subst hb
    rw [fn_of_rd hx]
    exact hle a ha

/-- What the constructor computes. -/
structure ParOk (n : Nat) (c : Cch) (par : Parallelization) (level : List Nat) (cnt : Nat) : Prop where
  levels : LevelsOk n c level cnt
  len : par.firstArcOfLevel.length = cnt + 1
  row : ∀ l, l < cnt → ∃ lo hi, rd par.firstArcOfLevel l = some lo ∧ rd par.firstArcOfLevel (l + 1) = some hi ∧
    (∀ i, lo ≤ i → i < hi → ∃ a x, rd par.arcsByLevel i = some a ∧ rd c.upTail a = some x ∧ fn level x = l) ∧
    ∀ a x, rd c.upTail a = some x → fn level x = l → ∃ i, lo ≤ i ∧ i < hi ∧ rd par.arcsByLevel i = some a

theorem parallelization_spec (g : c.GraphOk n) (hn : c.nodeCount = n) (hN : c.upTail.length < 2 ^ 32) :
    ∃ par level cnt, Parallelization.new c = some par ∧ ParOk n c par level cnt := by
  have hs := g.up.sorted.pairwise
  have hlen := g.up.sorted.1
  obtain ⟨level, cnt, e0, hl⟩ := computeLevels_spec g hn hN
  have hll := hl.len
  obtain ⟨p, e1, hp⟩ := stable_key_id (v := level) (n := cnt) (by
    intro x hx
    obtain ⟨i, hi⟩ := mem_iff_rd.1 hx
    have := hl.lt i (by have := rd_some_lt hi; omega)
    rwa [fn_of_rd hi] at this)
  have hpl : p.length = n := by rw [hp.2.1, hll]
  have hperm := isPerm_iff_perm.2 hp.1
  have plt : ∀ i x, rd p i = some x → x < n := by
    intro i x hi
    have := hperm.lt x (List.mem_of_getElem? hi)
    omega
  have rowx : ∀ x a, rd c.upTail a = some x ↔ cLt c.upTail x ≤ a ∧ a < cLt c.upTail (x + 1) := fun x a => cLt_range hs
  obtain ⟨⟨j, al, ao⟩, e2, E, hE, hmem⟩ := forRange_inv (lo := 0) (hi := n)
    (s := (0, List.replicate c.upTail.length 0, List.replicate c.upTail.length 0)) (f := placeNode c level p)
    (fun k s => ∃ E, Placed c level s E ∧ ∀ a, a ∈ E ↔ ∃ i x, i < k ∧ rd p i = some x ∧ rd c.upTail a = some x)
    (Nat.zero_le _) ⟨[], ⟨rfl, by simp, by simp, by simp, by simp, by simp [rd], by simp⟩, by simp⟩ (by
      rintro k s _ hk ⟨E, hE, hmem⟩
      obtain ⟨x, hx⟩ := rd_isSome (v := p) (i := k) (by omega)
      have hxn := plt k x hx
      have hxE : ∀ a, rd c.upTail a = some x → a ∉ E := by
        intro a ha hin
        obtain ⟨i, x', hi, q1, q2⟩ := (hmem a).1 hin
        cases (q2.symm.trans ha : some x' = some x)
        have := hperm.inj q1 hx
        omega
      have hold : ∀ a ∈ E, fn level (fn c.upTail a) ≤ fn level x := by
        intro a ha
        obtain ⟨i, x', hi, q1, q2⟩ := (hmem a).1 ha
        rw [fn_of_rd q2]
        have hx' := plt i x' q1
        rcases hp.2.2 i k x' x (fn level x') (fn level x) hi q1 hx (rd_fn (by omega)) (rd_fn (by omega)) with h | ⟨h, _⟩ <;> omega
      obtain ⟨s', e, E', hE', hmem'⟩ := forRange_inv (lo := cLt c.upTail x) (hi := cLt c.upTail (x + 1)) (s := s)
        (f := placeArc (fn level x))
        (fun q s => ∃ E', Placed c level s E' ∧ ∀ a, a ∈ E' ↔ a ∈ E ∨ (cLt c.upTail x ≤ a ∧ a < q)) (cLt_mono _ (by omega))
        ⟨E, hE, fun a => ⟨Or.inl, fun h => h.elim id (fun h => by omega)⟩⟩ (by
          rintro q s hq1 hq2 ⟨E', hE', hmem'⟩
          have hqx := (rowx x q).2 ⟨hq1, hq2⟩
          obtain ⟨s', e, hs'⟩ := hE'.add hqx (by
            intro h
            rcases (hmem' q).1 h with h | h
            · exact hxE q hqx h
            · omega) (by
            intro a ha
            rcases (hmem' a).1 ha with h | h
            · exact hold a h
            · rw [fn_of_rd ((rowx x a).2 ⟨h.1, by omega⟩)])
          refine ⟨s', e, E' ++ [q], hs', ?_⟩
          intro a
          rw [List.mem_append, List.mem_singleton, hmem']
          constructor
          · rintro ((h | h) | h)
            · exact Or.inl h
            · exact Or.inr ⟨h.1, by omega⟩
            · exact Or.inr ⟨by omega, by omega⟩
          · rintro (h | h)
            · exact Or.inl (Or.inl h)
            · rcases Nat.lt_or_ge a q with h' | h'
              · exact Or.inl (Or.inr ⟨h.1, h'⟩)
              · exact Or.inr (by omega))
      refine ⟨s', ?_, E', hE', ?_⟩
      · unfold placeNode
        simp only [hx, g.up.idx.2 x (by omega), g.up.idx.2 (x + 1) (by omega), rd_fn (show x < level.length by omega),
          Option.bind_eq_bind, Option.bind_some]
        exact e
      · intro a
        rw [hmem', hmem, ← rowx x a]
        constructor
        · rintro (⟨i, x', h1, h2, h3⟩ | h)
          · exact ⟨i, x', by omega, h2, h3⟩
          · exact ⟨k, x, by omega, hx, h⟩
        · rintro ⟨i, x', h1, h2, h3⟩
          rcases Nat.lt_or_ge i k with h | h
          · exact Or.inl ⟨i, x', h, h2, h3⟩
          · have : i = k := by omega
            subst this
            cases (h2.symm.trans hx : some x' = some x)
            exact Or.inr h3)
  have hall : ∀ a, a < c.upTail.length → a ∈ E := by
    intro a ha
    obtain ⟨x, hx⟩ := rd_isSome (v := c.upTail) ha
    have hxn := g.up.tail_lt x (mem_iff_rd.2 ⟨a, hx⟩)
    have : x ∈ p := (hp.1.mem_iff).2 (List.mem_range.2 (by omega))
    obtain ⟨i, hi⟩ := mem_iff_rd.1 this
    exact (hmem a).2 ⟨i, x, by have := rd_some_lt hi; omega, hi, hx⟩
  have hElen : E.length = c.upTail.length := by
    have h1 := (hE.nodup.subperm (l₂ := List.range c.upTail.length) (fun y hy => List.mem_range.2 (hE.lt y hy))).length_le
    have h2 := ((List.nodup_range (n := c.upTail.length)).subperm (l₂ := E) (fun y hy => hall y (List.mem_range.1 hy))).length_le
    simp at h1 h2
    omega
  have hao : ao = E := by
    apply list_ext_rd
    · rw [hElen]; exact hE.len2
    · intro i hi
      have h2 := hE.len2
      obtain ⟨a, ha⟩ := rd_isSome (v := E) (i := i) (by simp only at h2; omega)
      rw [ha]
      exact (hE.at_ i a ha).1
  have hal : al = E.map fun a => fn level (fn c.upTail a) := by
    apply list_ext_rd
    · rw [List.length_map, hElen]; exact hE.len1
    · intro i hi
      have h2 := hE.len1
      obtain ⟨a, ha⟩ := rd_isSome (v := E) (i := i) (by simp only at h2; omega)
      rw [(hE.at_ i a ha).2]
      unfold rd at ha ⊢
      rw [List.getElem?_map, ha]
      rfl
  have hsorted : al.Pairwise (· ≤ ·) := by rw [hal, List.pairwise_map]; exact hE.sorted
  obtain ⟨fo, e3, l3, h3⟩ := invertVector_spec (v := al) (n := cnt) hsorted (by
    intro v hv
    rw [hal, List.mem_map] at hv
    obtain ⟨a, ha, rfl⟩ := hv
    obtain ⟨x, hx⟩ := rd_isSome (v := c.upTail) (hE.lt a ha)
    rw [fn_of_rd hx]
    exact hl.lt x (g.up.tail_lt x (mem_iff_rd.2 ⟨a, hx⟩)))
  have hm : c.cchArcCount = c.upTail.length := hlen.symm
  refine ⟨⟨fo, ao⟩, level, cnt, ?_, hl, l3, ?_⟩
  · unfold Parallelization.new
    simp only [e0, e1, hn, hm, e2, e3, Option.bind_eq_bind, Option.bind_some]
  · intro l hlc
    have hrd : ∀ i, rd al i = some l ↔ cLt al l ≤ i ∧ i < cLt al (l + 1) := fun i => cLt_range hsorted
    have hval : ∀ i v, rd al i = some v ↔ ∃ a x, rd ao i = some a ∧ rd c.upTail a = some x ∧ fn level x = v := by
      intro i v
      rw [hao, hal]
      unfold rd
      rw [List.getElem?_map, Option.map_eq_some_iff]
      constructor
      · rintro ⟨a, ha, rfl⟩
        obtain ⟨x, hx⟩ := rd_isSome (v := c.upTail) (hE.lt a (List.mem_of_getElem? ha))
        exact ⟨a, x, ha, hx, by rw [fn_of_rd hx]⟩
      · rintro ⟨a, x, ha, hx, rfl⟩
        exact ⟨a, ha, by rw [fn_of_rd (show rd c.upTail a = some x from hx)]⟩
    refine ⟨cLt al l, cLt al (l + 1), h3 l (by omega), h3 (l + 1) (by omega), ?_, ?_⟩
    · intro i h1 h2
      exact (hval i l).1 ((hrd i).2 ⟨h1, h2⟩)
    · intro a x hx hlx
      have hin : a ∈ ao := by rw [hao]; exact hall a (rd_some_lt hx)
      obtain ⟨i, hi⟩ := mem_iff_rd.1 hin
      have := (hrd i).1 ((hval i l).2 ⟨a, x, hi, hx, hlx⟩)
      exact ⟨i, this.1, this.2, hi⟩

end
end RK
