import Verif.Proof.ChGraph
import Verif.Proof.WalkRel
import Verif.Proof.IdQueue
import Verif.Proof.TimestampFlags
/-! Helper lemmas about the witness search. -/
namespace RK
namespace WitnessSearch

/-- One direction of the search: `P` is the set of pushed nodes, `m` the queue. All tentative distances
are at most `L`, popped nodes have a distance of at most `key`, queued nodes of at least `key`. -/
structure KInv (S : WitnessSide) (n : Nat) (Reach : Nat → Nat → Prop) (L key : Nat) (P : Nat → Bool)
    (m : Nat → Option Nat) : Prop where
  flags : TimestampFlags.Rep S.pushed n P
  queue : MinIDQueue.Rep S.queue n m
  len : S.dist.length = n
  queued : ∀ x k, m x = some k → x < n ∧ P x = true ∧ fn S.dist x = k ∧ key ≤ k
  reach : ∀ x, x < n → P x = true → Reach x (fn S.dist x) ∧ fn S.dist x ≤ L
  popped : ∀ x, x < n → P x = true → m x = none → fn S.dist x ≤ key

/-- One direction of the search between two steps. -/
def SInv (S : WitnessSide) (n : Nat) (Reach : Nat → Nat → Prop) (L : Nat) : Prop :=
  ∃ key P m, KInv S n Reach L key P m

theorem KInv.imp {S : WitnessSide} {n L L' key : Nat} {R R' : Nat → Nat → Prop} {P : Nat → Bool}
    {m : Nat → Option Nat} (h : KInv S n R L key P m) (hR : ∀ x d, R x d → R' x d) (hL : L ≤ L') :
    KInv S n R' L' key P m :=
  ⟨h.flags, h.queue, h.len, h.queued, fun x hx hP => ⟨hR _ _ (h.reach x hx hP).1,
    Nat.le_trans (h.reach x hx hP).2 hL⟩, h.popped⟩

theorem add32_eq {a b L : Nat} (ha : a + b ≤ L) (hL : L < u32) : add32 a b = a + b := by
  unfold add32; exact Nat.mod_eq_of_lt (by omega)

theorem meets_spec {B : WitnessSide} {n : Nat} {RB : Nat → Nat → Prop} {L key : Nat} {P : Nat → Bool}
    {m : Nat → Option Nat} (h : KInv B n RB L key P m) {x d len : Nat} (hx : x < n) (hd : d ≤ L)
    (hL : 2 * L < u32) :
    ∃ r, meets B x d len = some r ∧ (r = true → ∃ d', RB x d' ∧ d + d' ≤ len) ∧
      (r = false → P x = true → len < d + fn B.dist x) := by
  unfold meets
  rw [h.flags.isSet hx]
  simp only [Option.bind_eq_bind, Option.bind_some]
  by_cases hp : P x = true
  · rw [if_pos hp, rd_fn (by rw [h.len]; exact hx)]
    simp only [Option.bind_some]
    obtain ⟨h1, h2⟩ := h.reach x hx hp
    rw [add32_eq (L := 2 * L) (by omega) hL]
    refine ⟨_, rfl, ?_, ?_⟩
    · intro hr
      exact ⟨_, h1, by simpa using hr⟩
    · intro hr _
      simpa using hr
  · rw [if_neg hp]
    exact ⟨false, rfl, by simp, fun _ hc => absurd hc hp⟩

/-- How relaxing arcs changes a side: nodes are pushed, tentative distances decrease, and nothing happens to
the nodes that were popped. -/
structure Grow (n : Nat) (S S' : WitnessSide) (P P' : Nat → Bool) (m m' : Nat → Option Nat) : Prop where
  push : ∀ x, P x = true → P' x = true
  dist : ∀ x, x < n → P x = true → fn S'.dist x ≤ fn S.dist x
  done : ∀ x, P' x = true ∧ m' x = none ↔ P x = true ∧ m x = none
  keep : ∀ x, x < n → P x = true → m x = none → fn S'.dist x = fn S.dist x

theorem Grow.refl (n : Nat) (S : WitnessSide) (P : Nat → Bool) (m : Nat → Option Nat) : Grow n S S P P m m :=
  ⟨fun _ h => h, fun _ _ _ => Nat.le_refl _, fun _ => Iff.rfl, fun _ _ _ _ => rfl⟩

theorem Grow.trans {n : Nat} {S S' S'' : WitnessSide} {P P' P'' : Nat → Bool} {m m' m'' : Nat → Option Nat}
    (h : Grow n S S' P P' m m') (g : Grow n S' S'' P' P'' m' m'') : Grow n S S'' P P'' m m'' :=
  ⟨fun x hx => g.push x (h.push x hx),
    fun x hx hp => Nat.le_trans (g.dist x hx (h.push x hp)) (h.dist x hx hp),
    fun x => (g.done x).trans (h.done x),
    fun x hx hp hm => (g.keep x hx ((h.done x).2 ⟨hp, hm⟩).1 ((h.done x).2 ⟨hp, hm⟩).2).trans (h.keep x hx hp hm)⟩

/-- No node reached from both sides is on a path of length at most `len`. -/
def Apart (n len : Nat) (S B : WitnessSide) (P PB : Nat → Bool) : Prop :=
  ∀ x, x < n → P x = true → PB x = true → len < fn S.dist x + fn B.dist x

theorem Apart.symm {n len : Nat} {S B : WitnessSide} {P PB : Nat → Bool} (h : Apart n len S B P PB) :
    Apart n len B S PB P := fun x hx h1 h2 => by have := h x hx h2 h1; omega

/-- A witness: `x` is reached by both searches with total length at most `len`. -/
def Met (R RB : Nat → Nat → Prop) (len : Nat) : Prop := ∃ x d d', R x d ∧ RB x d' ∧ d + d' ≤ len

theorem relaxArc_spec {n : Nat} {S B : WitnessSide} {R RB : Nat → Nat → Prop} {L key keyB W : Nat}
    {P PB : Nat → Bool} {m mB : Nat → Option Nat} {f : Bool} {a : ChArc} {b len : Nat}
    (hS : KInv S n R L key P m) (hB : KInv B n RB L keyB PB mB) (hL : 2 * L < u32)
    (hkey : key + W ≤ L) (han : a.node < n) (haw : a.weight ≤ W)
    (hR : a.node ≠ b → R a.node (key + a.weight)) (hf : f = true → Met R RB len) :
    ∃ S' f', relaxArc B b len key (S, f) a = some (S', f') ∧ (∃ P' m', KInv S' n R L key P' m' ∧
        Grow n S S' P P' m m' ∧ (a.node ≠ b → P' a.node = true ∧ fn S'.dist a.node ≤ key + a.weight) ∧
        (f' = false → f = false ∧ (Apart n len S B P PB → Apart n len S' B P' PB))) ∧
      (f' = true → Met R RB len) := by
  unfold relaxArc
  by_cases hb : a.node = b
  · rw [if_pos hb]
    exact ⟨S, f, rfl, ⟨P, m, hS, Grow.refl _ _ _ _, fun h => absurd hb h, fun h => ⟨h, fun h => h⟩⟩, hf⟩
  rw [if_neg hb]
  have hd : add32 key a.weight = key + a.weight := add32_eq (L := L) (by omega) (by omega)
  have hlen : a.node < S.dist.length := by rw [hS.len]; exact han
  have hRa := hR hb
  obtain ⟨r, er, hr, hr0⟩ := meets_spec hB (x := a.node) (d := key + a.weight) (len := len) han (by omega) hL
  have hf' : (f || r) = true → Met R RB len := by
    intro h
    rw [Bool.or_eq_true] at h
    rcases h with h | h
    · exact hf h
    · obtain ⟨d', h1, h2⟩ := hr h
      exact ⟨_, _, _, hRa, h1, h2⟩
  simp only [hd, hS.flags.isSet han, Option.bind_eq_bind, Option.bind_some]
  by_cases hp : P a.node = true
  · rw [if_pos hp, rd_fn hlen]
    simp only [Option.bind_some]
    by_cases hlt : key + a.weight < fn S.dist a.node
    · rw [if_pos hlt]
      -- the node must still be queued
      have hq : ∃ k, m a.node = some k := by
        cases hm : m a.node with
        | none => have := hS.popped a.node han hp hm; omega
        | some k => exact ⟨k, rfl⟩
      obtain ⟨k, hk⟩ := hq
      obtain ⟨q1, q2, q3, q4⟩ := hS.queued _ _ hk
      obtain ⟨q', eq', hq'⟩ := hS.queue.decreaseKey (p := ⟨a.node, key + a.weight⟩) hk
      simp only [eq', Option.bind_some, wr_lt hlen, er]
      refine ⟨_, _, rfl, ⟨P, _, ⟨hS.flags, hq', by simp [hS.len], ?_, ?_, ?_⟩, ⟨fun _ h => h, ?_, ?_, ?_⟩, ?_, ?_⟩, hf'⟩
      · intro x k' hx
        simp only at hx
        by_cases hxa : x = a.node
        · rw [if_pos hxa] at hx
          cases hx
          refine ⟨by omega, by rw [hxa]; exact hp, ?_, by omega⟩
          simp only [fn_set hlen, if_pos hxa]
          omega
        · rw [if_neg hxa] at hx
          simp only [fn_set hlen, if_neg hxa]
          exact hS.queued x k' hx
      · intro x hx hP
        simp only [fn_set hlen]
        by_cases hxa : x = a.node
        · rw [if_pos hxa, hxa]; exact ⟨hRa, by omega⟩
        · rw [if_neg hxa]; exact hS.reach x hx hP
      · intro x hx hP hm
        simp only at hm
        by_cases hxa : x = a.node
        · rw [if_pos hxa] at hm; cases hm
        · rw [if_neg hxa] at hm
          simp only [fn_set hlen, if_neg hxa]
          exact hS.popped x hx hP hm
      · intro x hx hP
        simp only [fn_set hlen]
        by_cases hxa : x = a.node
        · rw [if_pos hxa, hxa]; omega
        · rw [if_neg hxa]; exact Nat.le_refl _
      · intro x
        simp only
        by_cases hxa : x = a.node
        · rw [if_pos hxa, hxa, hk]; simp
        · rw [if_neg hxa]
      · intro x hx hP hm
        simp only [fn_set hlen]
        by_cases hxa : x = a.node
        · rw [hxa, hk] at hm; cases hm
        · rw [if_neg hxa]
      · intro _
        simp only [fn_set hlen]
        exact ⟨hp, by simp⟩
      · intro h
        rw [Bool.or_eq_false_iff] at h
        refine ⟨h.1, ?_⟩
        intro hA x hx h1 h2
        simp only [fn_set hlen]
        by_cases hxa : x = a.node
        · rw [if_pos hxa]
          subst hxa
          exact hr0 h.2 h2
        · rw [if_neg hxa]; exact hA x hx h1 h2
    · rw [if_neg hlt]
      exact ⟨S, f, rfl, ⟨P, m, hS, Grow.refl _ _ _ _, fun _ => ⟨hp, by omega⟩, fun h => ⟨h, fun h => h⟩⟩, hf⟩
  · rw [if_neg hp]
    have hm : m a.node = none := by
      cases hm : m a.node with
      | none => rfl
      | some k => exact absurd (hS.queued _ _ hm).2.1 hp
    obtain ⟨fl', efl, hfl⟩ := hS.flags.set han
    obtain ⟨q', eq', hq'⟩ := hS.queue.push (p := ⟨a.node, key + a.weight⟩) han hm
    simp only [efl, eq', Option.bind_some, wr_lt hlen, er]
    refine ⟨_, _, rfl, ⟨_, _, ⟨hfl, hq', by simp [hS.len], ?_, ?_, ?_⟩, ⟨?_, ?_, ?_, ?_⟩, ?_, ?_⟩, hf'⟩
    · intro x k' hx
      simp only at hx
      simp only [fn_set hlen]
      by_cases hxa : x = a.node
      · rw [if_pos hxa] at hx
        cases hx
        refine ⟨by omega, by rw [if_pos hxa], by rw [if_pos hxa], by omega⟩
      · rw [if_neg hxa] at hx
        rw [if_neg hxa, if_neg hxa]
        exact hS.queued x k' hx
    · intro x hx hP
      simp only [fn_set hlen]
      by_cases hxa : x = a.node
      · rw [if_pos hxa, hxa]; exact ⟨hRa, by omega⟩
      · rw [if_neg hxa] at hP ⊢
        exact hS.reach x hx hP
    · intro x hx hP hm'
      simp only at hm'
      by_cases hxa : x = a.node
      · rw [if_pos hxa] at hm'; cases hm'
      · rw [if_neg hxa] at hm' hP
        simp only [fn_set hlen, if_neg hxa]
        exact hS.popped x hx hP hm'
    · intro x hP
      split
      · rfl
      · exact hP
    · intro x hx hP
      simp only [fn_set hlen]
      by_cases hxa : x = a.node
      · rw [hxa] at hP; exact absurd hP hp
      · rw [if_neg hxa]; exact Nat.le_refl _
    · intro x
      simp only
      by_cases hxa : x = a.node
      · subst hxa; simp [hp]
      · rw [if_neg hxa, if_neg hxa]
    · intro x hx hP hm
      simp only [fn_set hlen]
      by_cases hxa : x = a.node
      · rw [hxa] at hP; exact absurd hP hp
      · rw [if_neg hxa]
    · intro _
      simp only [fn_set hlen]
      simp
    · intro h
      rw [Bool.or_eq_false_iff] at h
      refine ⟨h.1, ?_⟩
      intro hA x hx h1 h2
      simp only [fn_set hlen]
      by_cases hxa : x = a.node
      · rw [if_pos hxa]
        subst hxa
        exact hr0 h.2 h2
      · rw [if_neg hxa]
        simp only [if_neg hxa] at h1
        exact hA x hx h1 h2

theorem relaxArcs_spec {n : Nat} {B : WitnessSide} {R RB : Nat → Nat → Prop} {L key keyB W : Nat}
    {PB : Nat → Bool} {mB : Nat → Option Nat} {b len : Nat}
    (hB : KInv B n RB L keyB PB mB) (hL : 2 * L < u32) (hkey : key + W ≤ L) :
    ∀ (arcs : List ChArc) (S : WitnessSide) (f : Bool) (P : Nat → Bool) (m : Nat → Option Nat),
    (∀ a ∈ arcs, a.node < n ∧ a.weight ≤ W ∧ (a.node ≠ b → R a.node (key + a.weight))) →
    KInv S n R L key P m → (f = true → Met R RB len) →
    ∃ S' f', forEach arcs (S, f) (relaxArc B b len key) = some (S', f') ∧
      (∃ P' m', KInv S' n R L key P' m' ∧ Grow n S S' P P' m m' ∧
        (∀ a ∈ arcs, a.node ≠ b → P' a.node = true ∧ fn S'.dist a.node ≤ key + a.weight) ∧
        (f' = false → f = false ∧ (Apart n len S B P PB → Apart n len S' B P' PB))) ∧ (f' = true → Met R RB len)
  | [], S, f, P, m, _, hS, hf => ⟨S, f, rfl, ⟨P, m, hS, Grow.refl _ _ _ _, by simp, fun h => ⟨h, fun h => h⟩⟩, hf⟩
  | a :: arcs, S, f, P, m, ha, hS, hf => by
    obtain ⟨h1, h2, h3⟩ := ha a (by simp)
    obtain ⟨S1, f1, e1, ⟨P1, m1, hS1, g1, t1, n1⟩, hf1⟩ := relaxArc_spec (b := b) (len := len) hS hB hL hkey h1 h2 h3 hf
    obtain ⟨S2, f2, e2, ⟨P2, m2, hS2, g2, t2, n2⟩, hf2⟩ := relaxArcs_spec hB hL hkey arcs S1 f1 P1 m1
      (fun a' h' => ha a' (by simp [h'])) hS1 hf1
    refine ⟨S2, f2, by simp [forEach, e1, e2], ⟨P2, m2, hS2, g1.trans g2, ?_, ?_⟩, hf2⟩
    · intro a' ha' hb
      rcases List.mem_cons.1 ha' with rfl | ha'
      · exact ⟨g2.push _ (t1 hb).1, Nat.le_trans (g2.dist _ h1 (t1 hb).1) (t1 hb).2⟩
      · exact t2 a' ha' hb
    · intro h
      obtain ⟨i1, i2⟩ := n2 h
      obtain ⟨j1, j2⟩ := n1 i1
      exact ⟨j1, fun h => i2 (j2 h)⟩

/-- The arcs `E` of the popped nodes were relaxed. -/
def Relaxed (n : Nat) (E : Nat → Nat → Nat → Prop) (S : WitnessSide) (P : Nat → Bool) (m : Nat → Option Nat) : Prop :=
  ∀ x y w, x < n → P x = true → m x = none → E x y w → P y = true ∧ fn S.dist y ≤ fn S.dist x + w

/-- One direction of the search with start node `s`: all arcs `E` of the popped nodes were relaxed. -/
def SFrom (S : WitnessSide) (n : Nat) (Reach : Nat → Nat → Prop) (L : Nat) (E : Nat → Nat → Nat → Prop) (s : Nat) :
    Prop :=
  ∃ key P m, KInv S n Reach L key P m ∧ Relaxed n E S P m ∧ P s = true ∧ fn S.dist s = 0

/-- The number of popped nodes. -/
def popCount (n : Nat) (P : Nat → Bool) (m : Nat → Option Nat) : Nat :=
  (List.range n).countP fun x => P x && (m x).isNone

theorem popCount_congr {n : Nat} {P P' : Nat → Bool} {m m' : Nat → Option Nat}
    (h : ∀ x, P' x = true ∧ m' x = none ↔ P x = true ∧ m x = none) : popCount n P' m' = popCount n P m := by
  unfold popCount
  congr 1
  funext x
  rw [Bool.eq_iff_iff]
  simpa using h x

theorem countP_lt {α : Type} {p q : α → Bool} : ∀ {l : List α} {a : α}, (∀ x, p x = true → q x = true) → a ∈ l →
    p a = false → q a = true → l.countP p < l.countP q
  | b :: l, a, h, ha, hp, hq => by
    have hle : l.countP p ≤ l.countP q := List.countP_mono_left (fun x _ hx => h x hx)
    rcases List.mem_cons.1 ha with rfl | ha
    · rw [List.countP_cons, List.countP_cons, hp, hq]; simp; omega
    · have := countP_lt h ha hp hq
      rw [List.countP_cons, List.countP_cons]
      by_cases hb : p b = true
      · rw [if_pos hb, if_pos (h b hb)]; omega
      · rw [if_neg hb]; omega

theorem popCount_lt {n : Nat} {P : Nat → Bool} {m : Nat → Option Nat} {x : Nat} (hx : x < n) (hm : m x ≠ none) :
    popCount n P m < n := by
  have h : popCount n P m < (List.range n).countP (fun _ => true) := by
    refine countP_lt (a := x) (fun _ _ => rfl) (List.mem_range.2 hx) ?_ rfl
    cases h : m x with
    | none => exact absurd h hm
    | some k => simp
  simpa using h

theorem popCount_pop {n : Nat} {P : Nat → Bool} {m : Nat → Option Nat} {x : Nat} (hx : x < n) (hP : P x = true)
    (hm : m x ≠ none) : popCount n P m < popCount n P (fun id => if id = x then none else m id) := by
  refine countP_lt (a := x) ?_ (List.mem_range.2 hx) ?_ (by simp [hP])
  · intro y hy
    simp only [Bool.and_eq_true] at hy ⊢
    refine ⟨hy.1, ?_⟩
    split
    · rfl
    · exact hy.2
  · cases h : m x with
    | none => exact absurd h hm
    | some k => simp

theorem popCount_le (n : Nat) (P : Nat → Bool) (m : Nat → Option Nat) : popCount n P m ≤ n := by
  have := List.countP_le_length (p := fun x => P x && (m x).isNone) (l := List.range n)
  simpa [popCount] using this

theorem settle_spec {n : Nat} {adj : List (List ChArc)} {S B : WitnessSide} {R RB : Nat → Nat → Prop}
    {L key keyB W : Nat} {P PB : Nat → Bool} {m mB : Nat → Option Nat} {b len K : Nat}
    (hS : KInv S n R L key P m) (hB : KInv B n RB L keyB PB mB) (hL : 2 * L < u32)
    (hadj : ∀ x, x < n → ∃ arcs, rd adj x = some arcs ∧ ∀ a ∈ arcs, a.node < n ∧ a.weight ≤ W ∧
      ∀ d, R x d → a.node ≠ b → R a.node (d + a.weight))
    (hne : ∃ x k, m x = some k ∧ k ≤ K) (hK : K + W ≤ L) {E : Nat → Nat → Nat → Prop}
    (hE : ∀ x y w arcs, E x y w → rd adj x = some arcs → y ≠ b ∧ ∃ a ∈ arcs, a.node = y ∧ a.weight ≤ w)
    (hap : Apart n len S B P PB) (hrel : Relaxed n E S P m) :
    ∃ S' f, settle adj S B b len = some (S', f) ∧ (∃ key' P' m', KInv S' n R L key' P' m' ∧
        Relaxed n E S' P' m' ∧ popCount n P m < popCount n P' m' ∧
        (∀ x, x < n → P x = true → P' x = true ∧ fn S'.dist x ≤ fn S.dist x) ∧
        (f = false → Apart n len S' B P' PB)) ∧ (f = true → Met R RB len) := by
  obtain ⟨x0, k0, hx0, hk0⟩ := hne
  obtain ⟨q', e, eq, he1, he2, hq'⟩ := hS.queue.pop ⟨x0, by rw [hx0]; simp⟩
  obtain ⟨hen, heP, hek, hekey⟩ := hS.queued _ _ he1
  have hle : e.key ≤ K := Nat.le_trans (he2 _ _ hx0) hk0
  have hS1 : KInv { S with queue := q' } n R L e.key P (fun id => if id = e.id then none else m id) := by
    refine ⟨hS.flags, hq', hS.len, ?_, hS.reach, ?_⟩
    · intro x k hx
      split at hx
      · cases hx
      · obtain ⟨a1, a2, a3, a4⟩ := hS.queued x k hx
        exact ⟨a1, a2, a3, he2 _ _ hx⟩
    · intro x hx hP hm
      split at hm
      · rename_i hxe; rw [hxe]; simp only; omega
      · have := hS.popped x hx hP hm; simp only; omega
  obtain ⟨r, er, hr, _⟩ := meets_spec hB (x := e.id) (d := e.key) (len := len) hen (by omega) hL
  have hRe : R e.id e.key := by have := (hS.reach e.id hen heP).1; rw [hek] at this; exact this
  unfold settle
  simp only [eq, Option.bind_eq_bind, Option.bind_some, rd_fn (v := S.dist) (x := e.id)
    (by rw [hS.len]; exact hen), hek, decide_true, check_true, hS.flags.isSet hen, heP, er]
  have hmne : m e.id ≠ none := by rw [he1]; simp
  cases r with
  | true =>
    -- impossible: the distances of the popped node were compared when they were set
    exfalso
    unfold meets at er
    rw [hB.flags.isSet hen] at er
    simp only [Option.bind_eq_bind, Option.bind_some] at er
    by_cases hPB : PB e.id = true
    · rw [if_pos hPB, rd_fn (by rw [hB.len]; exact hen)] at er
      have h1 := hap e.id hen heP hPB
      have h2 := (hB.reach e.id hen hPB).2
      simp only [Option.bind_some, Option.some.injEq, decide_eq_true_eq] at er
      rw [add32_eq (L := 2 * L) (by omega) hL] at er
      omega
    · rw [if_neg hPB] at er; cases er
  | false =>
    obtain ⟨arcs, ea, harcs⟩ := hadj e.id hen
    simp only [Bool.false_eq_true, if_false, ea, Option.bind_some]
    obtain ⟨S', f', e', ⟨P', m', hS', hgrow, htaken, hnot⟩, hf'⟩ := relaxArcs_spec (b := b) (len := len) hB hL
      (show e.key + W ≤ L by omega) arcs _ false _ _
      (fun a ha => ⟨(harcs a ha).1, (harcs a ha).2.1, (harcs a ha).2.2 _ hRe⟩) hS1 (by simp)
    refine ⟨S', f', e', ⟨_, P', m', hS', ?_, ?_, ?_, fun h => (hnot h).2 hap⟩, hf'⟩
    · intro x y w hx hP hm hxy
      obtain ⟨hP0, hm0⟩ := (hgrow.done x).1 ⟨hP, hm⟩
      have hkeep : fn S'.dist x = fn S.dist x := hgrow.keep x hx hP0 hm0
      by_cases hxe : x = e.id
      · subst hxe
        obtain ⟨hyb, a, ha, rfl, haw⟩ := hE _ _ _ _ hxy ea
        obtain ⟨t1, t2⟩ := htaken a ha hyb
        exact ⟨t1, by rw [hkeep, hek]; omega⟩
      · rw [if_neg hxe] at hm0
        obtain ⟨r1, r2⟩ := hrel x y w hx hP0 hm0 hxy
        refine ⟨hgrow.push y r1, ?_⟩
        by_cases hyn : y < n
        · have : fn S'.dist y ≤ fn S.dist y := hgrow.dist y hyn r1
          omega
        · have h1 : ∀ T : WitnessSide, T.dist.length = n → fn T.dist y = 0 := by
            intro T hT
            unfold fn rd
            rw [List.getElem?_eq_none (by rw [hT]; omega)]; rfl
          rw [h1 S' hS'.len]; omega
    · rw [popCount_congr hgrow.done]
      exact popCount_pop hen heP hmne
    · intro x hx hP
      exact ⟨hgrow.push x hP, hgrow.dist x hx hP⟩

theorem startSide_spec {n : Nat} {S : WitnessSide} {R R' : Nat → Nat → Prop} {L L' s : Nat}
    (hS : SInv S n R L) (hs : s < n) (hR : R' s 0) : 
    ∃ S', startSide S s = some S' ∧ ∃ P m, KInv S' n R' L' 0 P m ∧ (∀ x, P x = decide (x = s)) ∧ m s = some 0 ∧
      fn S'.dist s = 0 := by
  obtain ⟨key, P, m, h⟩ := hS
  obtain ⟨q1, e1, hq1⟩ := h.queue.clear
  obtain ⟨q2, e2, hq2⟩ := hq1.push (p := ⟨s, 0⟩) hs rfl
  have hlen : s < S.dist.length := by rw [h.len]; exact hs
  obtain ⟨f', e3, hf⟩ := h.flags.resetAll.set hs
  refine ⟨⟨S.dist.set s 0, q2, f'⟩, ?_, _, _, ⟨hf, hq2, by simp [h.len], ?_, ?_, ?_⟩, ?_, ?_, ?_⟩
  · unfold startSide
    simp only [e1, e2, e3, Option.bind_eq_bind, Option.bind_some, wr_lt hlen]
  · intro x k hx
    simp only at hx
    split at hx
    · rename_i hxs
      cases hx
      simp only [fn_set hlen, if_pos hxs]
      exact ⟨by omega, trivial, trivial, by omega⟩
    · cases hx
  · intro x hx hP
    by_cases hxs : x = s
    · simp only [fn_set hlen]
      rw [if_pos hxs, hxs]
      exact ⟨hR, by omega⟩
    · rw [if_neg hxs] at hP; cases hP
  · intro x hx hP hm
    by_cases hxs : x = s
    · simp only [hxs] at hm; simp at hm
    · rw [if_neg hxs] at hP; cases hP
  · intro x
    by_cases hxs : x = s <;> simp [hxs]
  · simp
  · simp only [fn_set hlen]; simp

theorem startSide_from {n : Nat} {S : WitnessSide} {R R' : Nat → Nat → Prop} {L L' s : Nat}
    (E : Nat → Nat → Nat → Prop) (hS : SInv S n R L) (hs : s < n) (hR : R' s 0) :
    ∃ S', startSide S s = some S' ∧ SFrom S' n R' L' E s := by
  obtain ⟨S', e, P, m, h, hP, hm, hd⟩ := startSide_spec (L' := L') hS hs hR
  refine ⟨S', e, 0, P, m, h, ?_, by rw [hP]; simp, hd⟩
  intro x y w hx hPx hmx
  rw [hP] at hPx
  have hxs := of_decide_eq_true hPx
  rw [hxs, hm] at hmx
  cases hmx

/-- Arcs that avoid `b`. -/
def arcR (A : ArcMap) (b : Nat) : Nat → Nat → Nat → Prop :=
  fun x y w => ∃ i, A x y = some i ∧ i.weight = w ∧ x ≠ b ∧ y ≠ b

def ReachF (A : ArcMap) (b s : Nat) : Nat → Nat → Prop := fun x d => x ≠ b ∧ ∃ l, l ≤ d ∧ RWalk (arcR A b) s x l
def ReachB (A : ArcMap) (b t : Nat) : Nat → Nat → Prop := fun x d => x ≠ b ∧ ∃ l, l ≤ d ∧ RWalk (arcR A b) x t l

/-- State of the witness search with pinned source `s` and bypass node `b`. -/
structure WInv (w : WitnessSearch) (n : Nat) (A : ArcMap) (E : Nat → Nat → Nat → Prop) (s b : Nat) (L : Nat) :
    Prop where
  fwd : SFrom w.fwd n (ReachF A b s) L E s
  bwd : ∃ R L', SInv w.bwd n R L'
  bypass : w.bypass = b

theorem adj_out {g : ChGraph} {n : Nat} {A : ArcMap} (hg : GRep g n A) {W b s : Nat}
    (hW : ∀ x y i, A x y = some i → i.weight ≤ W) :
    ∀ x, x < n → ∃ arcs, rd g.out x = some arcs ∧ ∀ a ∈ arcs, a.node < n ∧ a.weight ≤ W ∧
      ∀ d, ReachF A b s x d → a.node ≠ b → ReachF A b s a.node (d + a.weight) := by
  intro x hx
  obtain ⟨l, el, hl⟩ := hg.out x hx
  refine ⟨l, el, ?_⟩
  intro a ha
  have hA := (hl.mem a).1 ha
  refine ⟨(hg.dom _ _ _ hA).2.1, hW _ _ _ hA, ?_⟩
  rintro d ⟨hxb, l', hl', hw⟩ hab
  exact ⟨hab, l' + a.weight, by omega, hw.snoc ⟨_, hA, rfl, hxb, hab⟩⟩

theorem adj_in {g : ChGraph} {n : Nat} {A : ArcMap} (hg : GRep g n A) {W b t : Nat}
    (hW : ∀ x y i, A x y = some i → i.weight ≤ W) :
    ∀ x, x < n → ∃ arcs, rd g.inn x = some arcs ∧ ∀ a ∈ arcs, a.node < n ∧ a.weight ≤ W ∧
      ∀ d, ReachB A b t x d → a.node ≠ b → ReachB A b t a.node (d + a.weight) := by
  intro x hx
  obtain ⟨l, el, hl⟩ := hg.inn x hx
  refine ⟨l, el, ?_⟩
  intro a ha
  have hA := (hl.mem a).1 ha
  refine ⟨(hg.dom _ _ _ hA).1, hW _ _ _ hA, ?_⟩
  rintro d ⟨hxb, l', hl', hw⟩ hab
  refine ⟨hab, a.weight + l', by omega, .cons ⟨_, hA, rfl, hab, hxb⟩ hw⟩

theorem met_walk {A : ArcMap} {b s t len : Nat} (h : Met (ReachF A b s) (ReachB A b t) len) :
    ∃ l, l ≤ len ∧ RWalk (arcR A b) s t l := by
  obtain ⟨x, d, d', ⟨_, l, hl, hw⟩, ⟨_, l', hl', hw'⟩, hle⟩ := h
  exact ⟨l + l', by omega, hw.append hw'⟩

theorem Met.symm {R RB : Nat → Nat → Prop} {len : Nat} (h : Met R RB len) : Met RB R len := by
  obtain ⟨x, d, d', h1, h2, h3⟩ := h
  exact ⟨x, d', d, h2, h1, by omega⟩

/-- Following a walk from a reached node: either its end was popped with a distance of at most the length, or some
node of it is in the queue. -/
theorem follow {n : Nat} {E : Nat → Nat → Nat → Prop} {S : WitnessSide} {P : Nat → Bool} {m : Nat → Option Nat}
    (hEn : ∀ x y w, E x y w → x < n ∧ y < n) (hrel : Relaxed n E S P m) {x t l : Nat} (hw : RWalk E x t l) :
    ∀ l0, x < n → P x = true → fn S.dist x ≤ l0 →
      (t < n ∧ P t = true ∧ fn S.dist t ≤ l0 + l) ∨
      ∃ y k l1 l2, y < n ∧ P y = true ∧ m y = some k ∧ fn S.dist y ≤ l1 ∧ RWalk E y t l2 ∧ l1 + l2 = l0 + l := by
  induction hw with
  | nil x => intro l0 hx hP hd; exact Or.inl ⟨hx, hP, hd⟩
  | @cons x y z w l ha hwk ih =>
    intro l0 hx hP hd
    cases hm : m x with
    | some k => exact Or.inr ⟨x, k, l0, w + l, hx, hP, hm, hd, .cons ha hwk, rfl⟩
    | none =>
      obtain ⟨h1, h2⟩ := hrel x y w hx hP hm ha
      rcases ih (l0 + w) (hEn _ _ _ ha).2 h1 (by omega) with h | ⟨y', k, l1, l2, g1, g2, g3, g4, g5, g6⟩
      · exact Or.inl ⟨h.1, h.2.1, by omega⟩
      · exact Or.inr ⟨y', k, l1, l2, g1, g2, g3, g4, g5, by omega⟩

/-- When the queues show that the search cannot find anything any more, every walk is longer than `len`. -/
theorem no_walk {n : Nat} {E : Nat → Nat → Nat → Prop} {F B : WitnessSide} {RF RB : Nat → Nat → Prop}
    {L kF kB len s t l : Nat} {PF PB : Nat → Bool} {mF mB : Nat → Option Nat}
    (hEn : ∀ x y w, E x y w → x < n ∧ y < n)
    (hF : KInv F n RF L kF PF mF) (rF : Relaxed n E F PF mF) (sF : PF s = true) (dF : fn F.dist s = 0)
    (hB : KInv B n RB L kB PB mB) (rB : Relaxed n (fun x y w => E y x w) B PB mB) (sB : PB t = true)
    (dB : fn B.dist t = 0) (hap : Apart n len F B PF PB)
    (hq : ∀ x k y k', mF x = some k → mB y = some k' → len < k + k') (hs : s < n) (ht : t < n)
    (hw : RWalk E s t l) : len < l := by
  rcases follow hEn rF hw 0 hs sF (by omega) with ⟨_, h1, h2⟩ | ⟨y, k, l1, l2, g1, g2, g3, g4, g5, g6⟩
  · have := hap t ht h1 sB; omega
  · have hk := (hF.queued _ _ g3).2.2.1
    rcases follow (fun x y w h => (hEn y x w h).symm) rB g5.reverse 0 ht sB (by omega) with
      ⟨_, h1, h2⟩ | ⟨z, k', l3, l4, i1, i2, i3, i4, i5, i6⟩
    · have := hap y g1 g2 h1; omega
    · have hk' := (hB.queued _ _ i3).2.2.1
      have := hq _ _ _ _ g3 i3
      omega

theorem out_arcs {g : ChGraph} {n : Nat} {A : ArcMap} (hg : GRep g n A) {b : Nat} {E : Nat → Nat → Nat → Prop}
    (hEA : ∀ x y w, E x y w → ∃ w', w' ≤ w ∧ arcR A b x y w') :
    ∀ x y w arcs, E x y w → rd g.out x = some arcs → y ≠ b ∧ ∃ a ∈ arcs, a.node = y ∧ a.weight ≤ w := by
  intro x y w arcs hE e
  obtain ⟨w', hw, i, hA, rfl, _, hy⟩ := hEA x y w hE
  obtain ⟨l, el, hl⟩ := hg.out x (hg.dom _ _ _ hA).1
  rw [e] at el; cases el
  exact ⟨hy, _, hl.mem_mk.2 hA, rfl, hw⟩

theorem in_arcs {g : ChGraph} {n : Nat} {A : ArcMap} (hg : GRep g n A) {b : Nat} {E : Nat → Nat → Nat → Prop}
    (hEA : ∀ x y w, E x y w → ∃ w', w' ≤ w ∧ arcR A b x y w') :
    ∀ x y w arcs, E y x w → rd g.inn x = some arcs → y ≠ b ∧ ∃ a ∈ arcs, a.node = y ∧ a.weight ≤ w := by
  intro x y w arcs hE e
  obtain ⟨w', hw, i, hA, rfl, hy, _⟩ := hEA y x w hE
  obtain ⟨l, el, hl⟩ := hg.inn x (hg.dom _ _ _ hA).2.1
  rw [e] at el; cases el
  exact ⟨hy, _, hl.mem_mk.2 hA, rfl, hw⟩

theorem loop_spec {g : ChGraph} {n : Nat} {A : ArcMap} (hg : GRep g n A) {W b s t len L : Nat}
    {E : Nat → Nat → Nat → Prop} (hEA : ∀ x y w, E x y w → ∃ w', w' ≤ w ∧ arcR A b x y w')
    (hW : ∀ x y i, A x y = some i → i.weight ≤ W) (hL : 2 * L < u32) (hlen : len + W ≤ L) (hs : s < n) (ht : t < n) :
    ∀ (rest : Nat) (w : WitnessSearch) (kF : Nat) (PF : Nat → Bool) (mF : Nat → Option Nat) (kB : Nat)
      (PB : Nat → Bool) (mB : Nat → Option Nat), w.bypass = b →
      KInv w.fwd n (ReachF A b s) L kF PF mF → Relaxed n E w.fwd PF mF → PF s = true → fn w.fwd.dist s = 0 →
      KInv w.bwd n (ReachB A b t) L kB PB mB → Relaxed n (fun x y w => E y x w) w.bwd PB mB → PB t = true →
      fn w.bwd.dist t = 0 → Apart n len w.fwd w.bwd PF PB →
      ∃ w' f, loop g len rest w = some (w', f) ∧ WInv w' n A E s b L ∧ w'.maxPop = w.maxPop ∧
        (f = true → Met (ReachF A b s) (ReachB A b t) len) ∧
        (f = false → 2 * n ≤ rest + popCount n PF mF + popCount n PB mB → ∀ l, RWalk E s t l → len < l) := by
  have hEn : ∀ x y w, E x y w → x < n ∧ y < n := by
    intro x y w h
    obtain ⟨_, _, i, hA, _⟩ := hEA x y w h
    exact ⟨(hg.dom _ _ _ hA).1, (hg.dom _ _ _ hA).2.1⟩
  intro rest
  induction rest with
  | zero =>
    intro w kF PF mF kB PB mB hb hF rF sF dF hB rB sB dB hap
    have hexit : (∀ x k y k', mF x = some k → mB y = some k' → len < k + k') →
        ∀ l, RWalk E s t l → len < l := fun hq l hw => no_walk hEn hF rF sF dF hB rB sB dB hap hq hs ht hw
    unfold loop
    by_cases hc : (!w.fwd.queue.empty && !w.bwd.queue.empty) = true
    · rw [if_pos hc]
      rw [Bool.and_eq_true] at hc
      have hFne : ∃ id, mF id ≠ none := by
        by_contra hno
        push Not at hno
        rw [hF.queue.empty_iff.2 hno] at hc; simp at hc
      have hBne : ∃ id, mB id ≠ none := by
        by_contra hno
        push Not at hno
        rw [hB.queue.empty_iff.2 hno] at hc; simp at hc
      obtain ⟨f, ef, hf1, hf2⟩ := hF.queue.peek hFne
      obtain ⟨c, ec, hc1, hc2⟩ := hB.queue.peek hBne
      obtain ⟨_, fP, fd, _⟩ := hF.queued _ _ hf1
      obtain ⟨_, cP, cd, _⟩ := hB.queued _ _ hc1
      have fL := (hF.reach f.id (hF.queued _ _ hf1).1 fP).2
      have cL := (hB.reach c.id (hB.queued _ _ hc1).1 cP).2
      simp only [ef, ec, Option.bind_eq_bind, Option.bind_some]
      rw [add32_eq (L := 2 * L) (by omega) hL]
      by_cases hgt : f.key + c.key > len
      · rw [if_pos hgt]
        refine ⟨w, false, rfl, ⟨⟨_, _, _, hF, rF, sF, dF⟩, ⟨_, _, _, _, _, hB⟩, hb⟩, rfl, by simp, fun _ _ => hexit ?_⟩
        intro x k y k' hx hy
        have := hf2 x k hx
        have := hc2 y k' hy
        omega
      · rw [if_neg hgt]
        unfold settleEither
        by_cases hle : f.key ≤ c.key
        · rw [if_pos hle]
          obtain ⟨S', r, e, ⟨kF', PF', mF', hF', rF', hcnt', hkeep', hap'⟩, hr⟩ := settle_spec (b := b) (len := len) (K := len)
            hF hB hL (adj_out hg hW) ⟨_, _, hf1, by omega⟩ hlen (out_arcs hg hEA) hap rF
          have sF' := (hkeep' s hs sF).1
          have dF' : fn S'.dist s = 0 := by have := (hkeep' s hs sF).2; omega
          rw [← hb] at e
          simp only [e, Option.map_some, Option.bind_some]
          cases r with
          | true =>
            simp only [if_true]
            exact ⟨_, _, rfl, ⟨⟨_, _, _, hF', rF', sF', dF'⟩, ⟨_, _, _, _, _, hB⟩, hb⟩, rfl, hr, by simp⟩
          | false =>
            simp only [Bool.false_eq_true, if_false]
            exact ⟨_, _, rfl, ⟨⟨_, _, _, hF', rF', sF', dF'⟩, ⟨_, _, _, _, _, hB⟩, hb⟩, rfl, by simp, fun _ hcnt => by
              have := popCount_lt (P := PF) (hF.queued _ _ hf1).1 (m := mF) (by rw [hf1]; simp)
              have := popCount_le n PB mB
              omega⟩
        · rw [if_neg hle]
          obtain ⟨S', r, e, ⟨kB', PB', mB', hB', rB', hcnt', hkeep', hap'⟩, hr⟩ := settle_spec (b := b) (len := len) (K := len)
            hB hF hL (adj_in hg hW) ⟨_, _, hc1, by omega⟩ hlen (in_arcs hg hEA) hap.symm rB
          have sB' := (hkeep' t ht sB).1
          have dB' : fn S'.dist t = 0 := by have := (hkeep' t ht sB).2; omega
          rw [← hb] at e
          simp only [e, Option.map_some, Option.bind_some]
          cases r with
          | true =>
            simp only [if_true]
            exact ⟨_, _, rfl, ⟨⟨_, _, _, hF, rF, sF, dF⟩, ⟨_, _, _, _, _, hB'⟩, hb⟩, rfl, fun h => (hr h).symm, by simp⟩
          | false =>
            simp only [Bool.false_eq_true, if_false]
            exact ⟨_, _, rfl, ⟨⟨_, _, _, hF, rF, sF, dF⟩, ⟨_, _, _, _, _, hB'⟩, hb⟩, rfl, by simp, fun _ hcnt => by
              have := popCount_lt (P := PB) (hB.queued _ _ hc1).1 (m := mB) (by rw [hc1]; simp)
              have := popCount_le n PF mF
              omega⟩
    · rw [if_neg hc]
      refine ⟨w, false, rfl, ⟨⟨_, _, _, hF, rF, sF, dF⟩, ⟨_, _, _, _, _, hB⟩, hb⟩, rfl, by simp, fun _ _ => hexit ?_⟩
      intro x k y k' hx hy
      exfalso
      apply hc
      rw [Bool.and_eq_true]
      constructor
      · rw [Bool.not_eq_true']
        refine Bool.eq_false_iff.2 fun h => ?_
        rw [hF.queue.empty_iff.1 h x] at hx; cases hx
      · rw [Bool.not_eq_true']
        refine Bool.eq_false_iff.2 fun h => ?_
        rw [hB.queue.empty_iff.1 h y] at hy; cases hy
  | succ rest ih =>
    intro w kF PF mF kB PB mB hb hF rF sF dF hB rB sB dB hap
    have hexit : (∀ x k y k', mF x = some k → mB y = some k' → len < k + k') →
        ∀ l, RWalk E s t l → len < l := fun hq l hw => no_walk hEn hF rF sF dF hB rB sB dB hap hq hs ht hw
    unfold loop
    by_cases hc : (!w.fwd.queue.empty && !w.bwd.queue.empty) = true
    · rw [if_pos hc]
      rw [Bool.and_eq_true] at hc
      have hFne : ∃ id, mF id ≠ none := by
        by_contra hno
        push Not at hno
        rw [hF.queue.empty_iff.2 hno] at hc; simp at hc
      have hBne : ∃ id, mB id ≠ none := by
        by_contra hno
        push Not at hno
        rw [hB.queue.empty_iff.2 hno] at hc; simp at hc
      obtain ⟨f, ef, hf1, hf2⟩ := hF.queue.peek hFne
      obtain ⟨c, ec, hc1, hc2⟩ := hB.queue.peek hBne
      obtain ⟨_, fP, fd, _⟩ := hF.queued _ _ hf1
      obtain ⟨_, cP, cd, _⟩ := hB.queued _ _ hc1
      have fL := (hF.reach f.id (hF.queued _ _ hf1).1 fP).2
      have cL := (hB.reach c.id (hB.queued _ _ hc1).1 cP).2
      simp only [ef, ec, Option.bind_eq_bind, Option.bind_some]
      rw [add32_eq (L := 2 * L) (by omega) hL]
      by_cases hgt : f.key + c.key > len
      · rw [if_pos hgt]
        refine ⟨w, false, rfl, ⟨⟨_, _, _, hF, rF, sF, dF⟩, ⟨_, _, _, _, _, hB⟩, hb⟩, rfl, by simp, fun _ _ => hexit ?_⟩
        intro x k y k' hx hy
        have := hf2 x k hx
        have := hc2 y k' hy
        omega
      · rw [if_neg hgt]
        unfold settleEither
        by_cases hle : f.key ≤ c.key
        · rw [if_pos hle]
          obtain ⟨S', r, e, ⟨kF', PF', mF', hF', rF', hcnt', hkeep', hap'⟩, hr⟩ := settle_spec (b := b) (len := len) (K := len)
            hF hB hL (adj_out hg hW) ⟨_, _, hf1, by omega⟩ hlen (out_arcs hg hEA) hap rF
          have sF' := (hkeep' s hs sF).1
          have dF' : fn S'.dist s = 0 := by have := (hkeep' s hs sF).2; omega
          rw [← hb] at e
          simp only [e, Option.map_some, Option.bind_some]
          cases r with
          | true =>
            simp only [if_true]
            exact ⟨_, _, rfl, ⟨⟨_, _, _, hF', rF', sF', dF'⟩, ⟨_, _, _, _, _, hB⟩, hb⟩, rfl, hr, by simp⟩
          | false =>
            simp only [Bool.false_eq_true, if_false]
            obtain ⟨w', f', e', i1, i2, i3, i4⟩ := ih { w with fwd := S' } kF' PF' mF' kB PB mB hb hF' rF' sF' dF' hB rB sB dB
              (hap' rfl)
            exact ⟨w', f', e', i1, i2, i3, fun hff hcnt => i4 hff (by omega)⟩
        · rw [if_neg hle]
          obtain ⟨S', r, e, ⟨kB', PB', mB', hB', rB', hcnt', hkeep', hap'⟩, hr⟩ := settle_spec (b := b) (len := len) (K := len)
            hB hF hL (adj_in hg hW) ⟨_, _, hc1, by omega⟩ hlen (in_arcs hg hEA) hap.symm rB
          have sB' := (hkeep' t ht sB).1
          have dB' : fn S'.dist t = 0 := by have := (hkeep' t ht sB).2; omega
          rw [← hb] at e
          simp only [e, Option.map_some, Option.bind_some]
          cases r with
          | true =>
            simp only [if_true]
            exact ⟨_, _, rfl, ⟨⟨_, _, _, hF, rF, sF, dF⟩, ⟨_, _, _, _, _, hB'⟩, hb⟩, rfl, fun h => (hr h).symm, by simp⟩
          | false =>
            simp only [Bool.false_eq_true, if_false]
            obtain ⟨w', f', e', i1, i2, i3, i4⟩ := ih { w with bwd := S' } kF PF mF kB' PB' mB' hb hF rF sF dF hB' rB' sB' dB'
              (hap' rfl).symm
            exact ⟨w', f', e', i1, i2, i3, fun hff hcnt => i4 hff (by omega)⟩
    · rw [if_neg hc]
      refine ⟨w, false, rfl, ⟨⟨_, _, _, hF, rF, sF, dF⟩, ⟨_, _, _, _, _, hB⟩, hb⟩, rfl, by simp, fun _ _ => hexit ?_⟩
      intro x k y k' hx hy
      exfalso
      apply hc
      rw [Bool.and_eq_true]
      constructor
      · rw [Bool.not_eq_true']
        refine Bool.eq_false_iff.2 fun h => ?_
        rw [hF.queue.empty_iff.1 h x] at hx; cases hx
      · rw [Bool.not_eq_true']
        refine Bool.eq_false_iff.2 fun h => ?_
        rw [hB.queue.empty_iff.1 h y] at hy; cases hy

/-- The witness test never fails, a positive answer is backed by a walk, and a negative answer of a search that may
pop every node means that every walk is longer. -/
theorem pathExists_spec {g : ChGraph} {n : Nat} {A : ArcMap} (hg : GRep g n A) {W b s t len L : Nat}
    {E : Nat → Nat → Nat → Prop} (hEA : ∀ x y w, E x y w → ∃ w', w' ≤ w ∧ arcR A b x y w')
    (hW : ∀ x y i, A x y = some i → i.weight ≤ W) (hL : 2 * L < u32) (hlen : len + W ≤ L)
    {w : WitnessSearch} (hw : WInv w n A E s b L) (hs : s < n) (ht : t < n) (htb : t ≠ b) :
    ∃ w' f, pathExists w g t len = some (w', f) ∧ WInv w' n A E s b L ∧ w'.maxPop = w.maxPop ∧
      (f = true → ∃ l, l ≤ len ∧ RWalk (arcR A b) s t l) ∧
      (f = false → 2 * n ≤ w.maxPop → ∀ l, RWalk E s t l → len < l) := by
  obtain ⟨RB, LB, hB0⟩ := hw.bwd
  obtain ⟨B, eB, PB, mB, hB, hPB, hmB, dB⟩ := startSide_spec (R' := ReachB A b t) (L' := L) hB0 ht
    ⟨htb, 0, Nat.le_refl _, RWalk.nil t⟩
  obtain ⟨kF, PF, mF, hF, rF, sF, dF⟩ := hw.fwd
  unfold pathExists
  simp only [eB, Option.bind_eq_bind, Option.bind_some, hF.flags.isSet ht, rd_fn (v := w.fwd.dist) (x := t)
    (by rw [hF.len]; exact ht)]
  by_cases hc : (PF t && decide (fn w.fwd.dist t ≤ len)) = true
  · rw [if_pos hc]
    rw [Bool.and_eq_true] at hc
    refine ⟨_, _, rfl, ⟨⟨_, _, _, hF, rF, sF, dF⟩, ⟨_, _, _, _, _, hB⟩, hw.bypass⟩, rfl, ?_, by simp⟩
    intro _
    obtain ⟨⟨_, l, hl, hwk⟩, _⟩ := hF.reach t ht hc.1
    exact ⟨l, by have := of_decide_eq_true hc.2; omega, hwk⟩
  · rw [if_neg hc]
    have rB : Relaxed n (fun x y w => E y x w) B PB mB := by
      intro x y w hx hPx hmx
      rw [hPB] at hPx
      have hxs := of_decide_eq_true hPx
      rw [hxs, hmB] at hmx
      cases hmx
    have hap : Apart n len w.fwd B PF PB := by
      intro x hx h1 h2
      rw [hPB] at h2
      have hxs := of_decide_eq_true h2
      subst hxs
      rw [h1, Bool.true_and, decide_eq_true_eq] at hc
      omega
    obtain ⟨w', f, e, h1, h2, h3, h4⟩ := loop_spec hg hEA hW hL hlen hs ht w.maxPop { w with bwd := B } kF PF mF 0 PB mB
      hw.bypass hF rF sF dF hB rB (by rw [hPB]; simp) dB hap
    exact ⟨w', f, e, h1, h2, fun hf => met_walk (h3 hf), fun hf hcnt => h4 hf (by omega)⟩

/-- State of an idle witness search. -/
def Idle (w : WitnessSearch) (n : Nat) : Prop := (∃ R L, SInv w.fwd n R L) ∧ ∃ R L, SInv w.bwd n R L

theorem idle_new {n maxPop : Nat} (hn : n ≤ MinIDQueue.maxIds) : Idle (new n maxPop) n := by
  have h : SInv ⟨List.replicate n 0, MinIDQueue.new n, TimestampFlags.new n⟩ n (fun _ _ => True) 0 := by
    refine ⟨0, _, _, ⟨TimestampFlags.rep_new n, MinIDQueue.rep_new hn, by simp, ?_, ?_, ?_⟩⟩
    · intro x k hx; cases hx
    · intro x _ hx; cases hx
    · intro x _ hx; cases hx
  exact ⟨⟨_, _, h⟩, _, _, h⟩

theorem SInv.weaken {S : WitnessSide} {n L L' : Nat} {R R' : Nat → Nat → Prop} (h : SInv S n R L)
    (hR : ∀ x d, R x d → R' x d) (hL : L ≤ L') : SInv S n R' L' := by
  obtain ⟨k, P, m, h⟩ := h
  exact ⟨k, P, m, h.imp hR hL⟩

end WitnessSearch
end RK
