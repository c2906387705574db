import Verif.Proof.ChRun
/-! Helper lemmas: unpacking hierarchy arcs; walks in the hierarchy and in the input graph. -/
namespace RK
open Spec

/-- Walks with the list of (arc, head). -/
inductive PWalk (A : ArcRel) : Nat → List (Nat × Nat) → Nat → Nat → Prop
  | nil (s : Nat) : PWalk A s [] s 0
  | cons {a s m t w l : Nat} {p : List (Nat × Nat)} : A a s m w → PWalk A m p t l → PWalk A s ((a, m) :: p) t (w + l)

namespace PWalk
variable {A : ArcRel}

theorem append {x y z l l' : Nat} {p q : List (Nat × Nat)} (h : PWalk A x p y l) (h' : PWalk A y q z l') :
    PWalk A x (p ++ q) z (l + l') := by
  induction h with
  | nil x => simpa using h'
  | cons ha _ ih => rw [List.cons_append, Nat.add_assoc]; exact .cons ha (ih h')

theorem walk {x y l : Nat} {p : List (Nat × Nat)} (h : PWalk A x p y l) : Walk A x (p.map Prod.fst) y l := by
  induction h with
  | nil x => exact .nil x
  | cons ha _ ih => exact .cons ha ih

theorem nodes {x y l : Nat} {p : List (Nat × Nat)} (h : PWalk A x p y l) :
    NodesOf A x (p.map Prod.fst) (x :: p.map Prod.snd) := by
  induction h with
  | nil x => exact .nil x
  | cons ha _ ih => exact .cons ha ih

end PWalk

variable {n : Nat} {In : ArcRel} {ch : Ch}

theorem ChOk.order_rd (h : ChOk n In ch) {i : Nat} (hi : i < n) : rd ch.order i = some (fn ch.order i) :=
  rd_fn (by rw [h.orderLen]; exact hi)

theorem ChOk.rank_rd (h : ChOk n In ch) {x : Nat} (hx : x < n) : rd ch.rank x = some (fn ch.rank x) :=
  rd_fn (by rw [h.rankLen]; exact hx)

theorem ChOk.rank_lt (h : ChOk n In ch) {x i : Nat} (hx : rd ch.rank x = some i) : i < n := by
  rw [← h.rankLen]
  exact h.rankPerm.lt _ (List.mem_of_getElem? hx)

theorem ChOk.order_rank (h : ChOk n In ch) {x i : Nat} (hx : rd ch.rank x = some i) : fn ch.order i = x :=
  fn_of_rd ((h.inv i x (h.rank_lt hx)).1 hx)

theorem ChOk.arcF (h : ChOk n In ch) {a x y w : Nat} (ha : ch.forward.Arc a x y w) : x < y ∧ y < n :=
  ⟨(h.hier.fUp x y w ⟨a, ha⟩).2.2, (h.hier.fUp x y w ⟨a, ha⟩).2.1⟩

theorem ChOk.arcB (h : ChOk n In ch) {a x y w : Nat} (ha : ch.backward.Arc a x y w) : x < y ∧ y < n :=
  ⟨(h.hier.bUp x y w ⟨a, ha⟩).2.2, (h.hier.bUp x y w ⟨a, ha⟩).2.1⟩

theorem sideArc_lt {n : Nat} {s : ChSide} (hs : SideOk n s) {a x y w : Nat} (ha : s.Arc a x y w) : a < s.head.length :=
  rd_some_lt (v := s.head) ha.2.1

theorem unpack_spec (h : ChOk n In ch) : ∀ fuel (up : Bool) a p q w, p < fuel →
    (if up then ch.forward.Arc a p q w else ch.backward.Arc a p q w) →
    ∃ l, ch.unpack fuel up a = some l ∧
      (if up then PWalk In (fn ch.order p) l (fn ch.order q) w else PWalk In (fn ch.order q) l (fn ch.order p) w)
  | 0, _, _, p, _, _, hp, _ => absurd hp (Nat.not_lt_zero p)
  | fuel + 1, up, a, p, q, w, hp, ha => by
    -- the common part
    have key : ∀ (o : Bool) (i j u v : Nat), Expands In ch.order ch.forward.Arc ch.backward.Arc o i j u v w →
        (∀ z, z < u → z < v → z < fuel) →
        ∃ l, (if o then some [(i, j)] else
          (check (decide (i < ch.backward.head.length))).bind fun _ => (check (decide (j < ch.forward.head.length))).bind fun _ =>
            (ch.unpack fuel false i).bind fun l1 => (ch.unpack fuel true j).bind fun l2 => some (l1 ++ l2)) = some l ∧
          PWalk In (fn ch.order u) l (fn ch.order v) w := by
      intro o i j u v hex hz
      rcases hex with ⟨rfl, x, y, h1, h2, h3, rfl⟩ | ⟨rfl, z, w1, w2, h1, h2, rfl⟩
      · refine ⟨[(i, j)], rfl, ?_⟩
        rw [fn_of_rd h1, fn_of_rd h2]
        exact PWalk.cons h3 (PWalk.nil j)
      · have hz' := hz z (h.arcB h1).1 (h.arcF h2).1
        obtain ⟨l1, e1, p1⟩ := unpack_spec h fuel false i z u w1 hz' (by simpa using h1)
        obtain ⟨l2, e2, p2⟩ := unpack_spec h fuel true j z v w2 hz' (by simpa using h2)
        simp only [Bool.false_eq_true, if_false] at p1
        simp only [if_true] at p2
        refine ⟨l1 ++ l2, ?_, p1.append p2⟩
        simp [sideArc_lt h.bwd h1, sideArc_lt h.fwd h2, e1, e2]
    cases up with
    | true =>
      simp only [if_true] at ha ⊢
      obtain ⟨o, i, j, hu, hex⟩ := h.exF a p q w ha
      obtain ⟨l, e, hw⟩ := key o i j p q hex (fun z h1 _ => by omega)
      refine ⟨l, ?_, hw⟩
      unfold Ch.unpack
      simp only [if_true, hu.bit, hu.first, hu.second, Option.bind_eq_bind, Option.bind_some]
      exact e
    | false =>
      simp only [Bool.false_eq_true, if_false] at ha ⊢
      obtain ⟨o, i, j, hu, hex⟩ := h.exB a p q w ha
      obtain ⟨l, e, hw⟩ := key o i j q p hex (fun z _ h1 => by omega)
      refine ⟨l, ?_, hw⟩
      unfold Ch.unpack
      simp only [Bool.false_eq_true, if_false, hu.bit, hu.first, hu.second, Option.bind_eq_bind, Option.bind_some]
      exact e

theorem unpackAll_from (ch : Ch) (up : Bool) : ∀ (as : List Nat) (out : List (Nat × Nat)),
    forEach as out (fun out a => (ch.unpack (ch.rank.length + 1) up a).bind fun l => some (out ++ l)) =
      (ch.unpackAll up as).map (out ++ ·)
  | [], out => by simp [Ch.unpackAll, forEach]
  | b :: bs, out => by
    have ih := unpackAll_from ch up bs
    unfold Ch.unpackAll
    simp only [forEach, Option.bind_eq_bind]
    cases hb : ch.unpack (ch.rank.length + 1) up b with
    | none => rfl
    | some l =>
      simp only [Option.bind_some, List.nil_append]
      rw [ih, ih, Option.map_map]
      congr 1
      funext x
      simp

theorem unpackAll_cons (ch : Ch) (up : Bool) (a : Nat) (as : List Nat) {l l' : List (Nat × Nat)}
    (h1 : ch.unpack (ch.rank.length + 1) up a = some l) (h2 : ch.unpackAll up as = some l') :
    ch.unpackAll up (a :: as) = some (l ++ l') := by
  have := unpackAll_from ch up as l
  unfold Ch.unpackAll
  simp only [forEach, Option.bind_eq_bind, h1, Option.bind_some, List.nil_append]
  rw [this, h2, Option.map_some]

/-- Unpacking an upward walk. -/
theorem unpackAll_up (h : ChOk n In ch) : ∀ {arcs : List Nat} {s x l : Nat}, Walk ch.forward.Arc s arcs x l →
    ∃ p, ch.unpackAll true arcs = some p ∧ PWalk In (fn ch.order s) p (fn ch.order x) l := by
  intro arcs s x l hw
  induction hw with
  | nil s => exact ⟨[], rfl, PWalk.nil _⟩
  | cons ha _ ih =>
    obtain ⟨p, e, hp⟩ := ih
    have hs := h.arcF ha
    obtain ⟨l1, e1, hp1⟩ := unpack_spec h (ch.rank.length + 1) true _ _ _ _ (by rw [h.rankLen]; omega)
      (show (if true = true then _ else _) from ha)
    exact ⟨_, unpackAll_cons ch true _ _ e1 e, hp1.append hp⟩

/-- Unpacking a downward walk; the arcs are given from top to bottom. -/
theorem unpackAll_down (h : ChOk n In ch) : ∀ (arcs : List Nat) {t x l : Nat}, Walk ch.backward.Arc t arcs.reverse x l →
    ∃ p, ch.unpackAll false arcs = some p ∧ PWalk In (fn ch.order x) p (fn ch.order t) l
  | [], t, x, l, hw => by
    cases hw
    exact ⟨[], rfl, PWalk.nil _⟩
  | a :: as, t, x, l, hw => by
    have : ∃ y l' w, Walk ch.backward.Arc t as.reverse y l' ∧ ch.backward.Arc a y x w ∧ l = l' + w := by
      rw [List.reverse_cons] at hw
      generalize as.reverse = bs at hw
      clear h
      induction bs generalizing t l with
      | nil =>
        cases hw with
        | cons hb hw' => cases hw'; exact ⟨t, 0, _, Walk.nil t, hb, by omega⟩
      | cons b bs ih =>
        rw [List.cons_append] at hw
        cases hw with
        | cons hb hw' =>
          obtain ⟨y, l', w, h1, h2, rfl⟩ := ih _ _ hw'
          exact ⟨y, _, w, Walk.cons hb h1, h2, by omega⟩
    obtain ⟨y, l', w, h1, h2, rfl⟩ := this
    obtain ⟨p, e, hp⟩ := unpackAll_down h as h1
    have hy := h.arcB h2
    obtain ⟨l1, e1, hp1⟩ := unpack_spec h (ch.rank.length + 1) false a y x w (by rw [h.rankLen]; omega)
      (show (if false = true then _ else _) from h2)
    rw [Nat.add_comm]
    exact ⟨_, unpackAll_cons ch false _ _ e1 e, PWalk.append hp1 hp⟩

/-- Hierarchy walks exist in the input graph. -/
theorem ChOk.walk_in (h : ChOk n In ch) {x y l : Nat} (hw : RWalk (UR (fun x => x) 0 ch.forward.R ch.backward.R) x y l) :
    ∃ p, PWalk In (fn ch.order x) p (fn ch.order y) l := by
  induction hw with
  | nil x => exact ⟨[], PWalk.nil _⟩
  | cons ha _ ih =>
    obtain ⟨p, hp⟩ := ih
    rcases ha.1 with ⟨a, ha⟩ | ⟨a, ha⟩
    · obtain ⟨l1, _, hp1⟩ := unpack_spec h (n + 1) true _ _ _ _ (by have := h.arcF ha; omega)
        (show (if true = true then _ else _) from ha)
      exact ⟨_, PWalk.append hp1 hp⟩
    · obtain ⟨l1, _, hp1⟩ := unpack_spec h (n + 1) false _ _ _ _ (by have := h.arcB ha; omega)
        (show (if false = true then _ else _) from ha)
      exact ⟨_, PWalk.append hp1 hp⟩

/-- Walks of the input graph have counterparts in the hierarchy that are not longer. -/
theorem ChOk.walk_ch (h : ChOk n In ch) {x y l : Nat} {p : List Nat} (hw : Walk In x p y l) :
    ∀ {i j : Nat}, rd ch.rank x = some i → rd ch.rank y = some j → l < infWeight →
    ∃ l', l' ≤ l ∧ RWalk (UR (fun x => x) 0 ch.forward.R ch.backward.R) i j l' := by
  induction hw with
  | nil x =>
    intro i j hi hj _
    have : some i = some j := hi.symm.trans hj
    cases this
    exact ⟨0, Nat.le_refl _, RWalk.nil i⟩
  | @cons a s m t w l p ha _ ih =>
    intro i j hi hj hl
    by_cases hsm : s = m
    · subst hsm
      obtain ⟨l', h1, h2⟩ := ih hi hj (by omega)
      exact ⟨l', by omega, h2⟩
    · obtain ⟨i', q, w', h1, h2, h3, h4⟩ := h.dom a s m w ha hsm (by omega)
      have : some i = some i' := hi.symm.trans h1
      cases this
      obtain ⟨l', k1, k2⟩ := ih h2 hj (by omega)
      exact ⟨w' + l', by omega, RWalk.append h4 k2⟩

end RK
