import Verif.Proof.CchOk
import Verif.Model.CchMetric
import Verif.Spec.CchMetric
/-! Helper lemmas: customization of a metric. -/
namespace RK
open Spec BitVector

/-! ### Walks through lower nodes -/

theorem innerWalk_mono {A : ArcRel} {I J : Nat → Prop} (h : ∀ z, I z → J z) {x y l : Nat} {p : List Nat}
    (hp : InnerWalk A I x p y l) : InnerWalk A J x p y l := by
  induction hp with
  | edge he => exact .edge he
  | step he hz _ ih => exact .step he (h _ hz) ih

theorem innerWalk_append {A : ArcRel} {I : Nat → Prop} {x z y l1 l2 : Nat} {p1 p2 : List Nat}
    (h1 : InnerWalk A I x p1 z l1) (hz : I z) (h2 : InnerWalk A I z p2 y l2) :
    InnerWalk A I x (p1 ++ p2) y (l1 + l2) := by
  induction h1 with
  | edge he => exact .step he hz h2
  | step he hz' _ ih =>
    rw [Nat.add_assoc]
    exact .step he hz' (ih hz h2)

theorem innerWalk_lt {A : ArcRel} {a b x y l : Nat} {p : List Nat} (h : InnerWalk A (fun z => z < a) x p y l) (hab : a ≤ b) :
    InnerWalk A (fun z => z < b) x p y l := innerWalk_mono (fun _ h' => by omega) h

/-- A walk with inner nodes up to `r` either avoids `r` or can be split at its first and last visit of `r`. -/
theorem innerWalk_split {A : ArcRel} {r x y l : Nat} {p : List Nat} (h : InnerWalk A (fun z => z < r + 1) x p y l) :
    InnerWalk A (fun z => z < r) x p y l ∨
      ∃ p1 l1 p2 l2, InnerWalk A (fun z => z < r) x p1 r l1 ∧ InnerWalk A (fun z => z < r) r p2 y l2 ∧ l1 + l2 ≤ l := by
  induction h with
  | edge he => exact Or.inl (.edge he)
  | @step a x z y w l p he hz _ ih =>
    by_cases hzr : z = r
    · subst hzr
      rcases ih with h | ⟨p1, l1, p2, l2, h1, h2, hle⟩
      · exact Or.inr ⟨_, _, _, _, .edge he, h, Nat.le_refl _⟩
      · exact Or.inr ⟨_, _, _, _, .edge he, h2, by omega⟩
    · have hz' : z < r := by omega
      rcases ih with h | ⟨p1, l1, p2, l2, h1, h2, hle⟩
      · exact Or.inl (.step he hz' h)
      · exact Or.inr ⟨_, _, _, _, .step he hz' h1, h2, by omega⟩

theorem innerWalk_path {A : ArcRel} {E : Nat → Nat → Prop} (h : ∀ a x y w, A a x y w → E x y) {I : Nat → Prop}
    {x y l : Nat} {p : List Nat} (hp : InnerWalk A I x p y l) : InnerPath E I x y := by
  induction hp with
  | edge he => exact .edge (h _ _ _ _ he)
  | step he hz _ ih => exact .step (h _ _ _ _ he) hz ih

theorem isInnerMin_unique {A : ArcRel} {I : Nat → Prop} {cap x y v v' : Nat} (h : IsInnerMin A I cap x y v)
    (h' : IsInnerMin A I cap x y v') : v = v' := by
  obtain ⟨h1, h2, h3⟩ := h
  obtain ⟨h1', h2', h3'⟩ := h'
  rcases h3 with h3 | ⟨p, h3⟩ <;> rcases h3' with h3' | ⟨p', h3'⟩
  · omega
  · have := h2 _ _ h3'; omega
  · have := h2' _ _ h3; omega
  · have := h2 _ _ h3'; have := h2' _ _ h3; omega

/-! ### Metrics as functions -/

/-- `f` and `b` are the weights stored in `m`. -/
structure MetricIs (m : Metric) (N : Nat) (f b : Nat → Nat) : Prop where
  lenF : m.forward.length = N
  lenB : m.backward.length = N
  fwd : ∀ a, a < N → rd m.forward a = some (f a)
  bwd : ∀ a, a < N → rd m.backward a = some (b a)

/-- Replace one value. -/
def setAt (f : Nat → Nat) (a v : Nat) : Nat → Nat := fun i => if i = a then v else f i

theorem setAt_same (f : Nat → Nat) (a v : Nat) : setAt f a v a = v := by simp [setAt]
theorem setAt_other (f : Nat → Nat) {a i : Nat} (v : Nat) (h : i ≠ a) : setAt f a v i = f i := by simp [setAt, h]
theorem setAt_self (f : Nat → Nat) (a : Nat) : setAt f a (f a) = f := by
  funext i; unfold setAt; split <;> simp_all
theorem setAt_setAt (f : Nat → Nat) (a v v' : Nat) : setAt (setAt f a v) a v' = setAt f a v' := by
  funext i; unfold setAt; split <;> rfl

/-- `v` stores the function `f`. -/
def Is (v : List Nat) (N : Nat) (f : Nat → Nat) : Prop := v.length = N ∧ ∀ a, a < N → rd v a = some (f a)

theorem Is.wr {v : List Nat} {N : Nat} {f : Nat → Nat} (h : Is v N f) {a : Nat} (ha : a < N) (x : Nat) :
    ∃ v', wr v a x = some v' ∧ Is v' N (setAt f a x) := by
  have hl := h.1
  refine ⟨v.set a x, wr_lt (by omega), by simpa using hl, ?_⟩
  intro i hi
  rw [rd_set (by omega)]
  unfold setAt
  split
  · rfl
  · exact h.2 i hi

theorem Is.minTo {v : List Nat} {N : Nat} {f : Nat → Nat} (h : Is v N f) {a : Nat} (ha : a < N) (x : Nat) :
    ∃ v', minTo v a x = some v' ∧ Is v' N (setAt f a (min (f a) x)) := by
  unfold RK.minTo
  simp only [h.2 a ha, Option.bind_eq_bind, Option.bind_some]
  by_cases hx : x < f a
  · rw [if_pos hx]
    obtain ⟨v', e, hv⟩ := h.wr ha x
    rw [Nat.min_eq_right (by omega)]
    exact ⟨v', e, hv⟩
  · rw [if_neg hx, Nat.min_eq_left (by omega), setAt_self]
    exact ⟨v, rfl, h⟩

theorem MetricIs.isF {m : Metric} {N : Nat} {f b : Nat → Nat} (h : MetricIs m N f b) : Is m.forward N f := ⟨h.lenF, h.fwd⟩
theorem MetricIs.isB {m : Metric} {N : Nat} {f b : Nat → Nat} (h : MetricIs m N f b) : Is m.backward N b := ⟨h.lenB, h.bwd⟩
theorem MetricIs.mk' {F B : List Nat} {N : Nat} {f b : Nat → Nat} (h1 : Is F N f) (h2 : Is B N b) : MetricIs ⟨F, B⟩ N f b :=
  ⟨h1.1, h2.1, h1.2, h2.2⟩

theorem metricIs_eq {m m' : Metric} {N : Nat} {f b f' b' : Nat → Nat} (h : MetricIs m N f b) (h' : MetricIs m' N f' b')
    (he : ∀ a, a < N → f a = f' a ∧ b a = b' a) : m = m' := by
  have e1 : m.forward = m'.forward := by
    apply list_ext_rd
    · rw [h.lenF, h'.lenF]
    · intro i hi
      rw [h.lenF] at hi
      rw [h.fwd i hi, h'.fwd i hi, (he i hi).1]
  have e2 : m.backward = m'.backward := by
    apply list_ext_rd
    · rw [h.lenB, h'.lenB]
    · intro i hi
      rw [h.lenB] at hi
      rw [h.bwd i hi, h'.bwd i hi, (he i hi).2]
  cases m; cases m'
  simp only [Metric.mk.injEq]
  exact ⟨e1, e2⟩

theorem metric_is {m : Metric} {N : Nat} (h1 : m.forward.length = N) (h2 : m.backward.length = N) :
    MetricIs m N (fn m.forward) (fn m.backward) :=
  ⟨h1, h2, fun a ha => rd_fn (by omega), fun a ha => rd_fn (by omega)⟩

/-! ### Initial weights -/

/-- `v` is the smallest weight of an arc from `x` to `y`, at most `inf_weight`. -/
def IsMinArc (A : ArcRel) (x y v : Nat) : Prop :=
  v ≤ infWeight ∧ (∀ i w, A i x y w → v ≤ w) ∧ (v < infWeight → ∃ i, A i x y v)

theorem isMinArc_unique {A : ArcRel} {x y v v' : Nat} (h : IsMinArc A x y v) (h' : IsMinArc A x y v') : v = v' := by
  obtain ⟨h1, h2, h3⟩ := h
  obtain ⟨h1', h2', h3'⟩ := h'
  rcases Nat.lt_trichotomy v v' with hlt | hlt | hlt
  · obtain ⟨i, hi⟩ := h3 (by omega); have := h2' _ _ hi; omega
  · exact hlt
  · obtain ⟨i, hi⟩ := h3' (by omega); have := h2 _ _ hi; omega

/-- Weights at most `inf_weight`. -/
def WeightsOk (w : List Nat) : Prop := ∀ (i v : Nat), rd w i = some v → v ≤ infWeight

theorem initFirst_spec {S : Nat → Nat → Prop} {HB EB : List Bool} {first fo extra w : List Nat}
    (d : DirOk S HB EB first fo extra) (hS : ∀ i a, S i a → i < w.length) (hw : WeightsOk w) {a : Nat} (ha : at' HB a = true) :
    ∃ v, initFirst w first (rk (at' HB) a) = some v ∧ v ≤ infWeight ∧ (v < infWeight → ∃ i, S i a ∧ rd w i = some v) ∧
      ∀ i v', rd first (rk (at' HB) a) = some i → S i a → rd w i = some v' → v ≤ v' := by
  obtain ⟨e, he, hc⟩ := d.first_ a ha
  unfold initFirst
  simp only [he, Option.bind_eq_bind, Option.bind_some]
  rcases hc with ⟨h1, h2⟩ | ⟨h1, h2⟩
  · rw [if_neg (by simpa using h1)]
    exact ⟨infWeight, rfl, Nat.le_refl _, fun h => absurd h (Nat.lt_irrefl _), fun i v' _ h => absurd h (h2 i)⟩
  · rw [if_pos h1]
    obtain ⟨v, hv⟩ := rd_isSome (v := w) (hS e a h2)
    refine ⟨v, hv, hw e v hv, fun _ => ⟨e, h2, hv⟩, ?_⟩
    intro i v' hi _ hv'
    cases hi
    exact Nat.le_of_eq (rd_congr_some hv hv')

theorem initExtra_spec {S : Nat → Nat → Prop} {HB EB : List Bool} {first fo extra w : List Nat}
    (d : DirOk S HB EB first fo extra) (hS : ∀ i a, S i a → i < w.length) {a N : Nat} (ha : at' EB a = true)
    {v : List Nat} {f : Nat → Nat} (hv : Is v N f) (haN : a < N) :
    ∃ v' x, initExtra w fo extra (rk (at' EB) a) a v = some v' ∧ Is v' N (setAt f a x) ∧ x ≤ f a ∧
      (x = f a ∨ ∃ i, S i a ∧ rd w i = some x) ∧
      ∀ i lo hi j y, rd fo (rk (at' EB) a) = some lo → rd fo (rk (at' EB) a + 1) = some hi → lo ≤ j → j < hi →
        rd extra j = some i → rd w i = some y → x ≤ y := by
  obtain ⟨lo, hi, e1, e2, h1, h2, h3⟩ := d.range a ha
  unfold initExtra
  simp only [e1, e2, Option.bind_eq_bind, Option.bind_some]
  obtain ⟨v', e, x, g1, g2, g3, g4⟩ := forRange_inv (lo := lo) (hi := hi) (s := v)
    (f := fun v j => (rd extra j).bind fun e => (rd w e).bind fun x => minTo v a x)
    (fun k v => ∃ x, Is v N (setAt f a x) ∧ x ≤ f a ∧ (x = f a ∨ ∃ i, S i a ∧ rd w i = some x) ∧
      ∀ j i y, lo ≤ j → j < k → rd extra j = some i → rd w i = some y → x ≤ y) h1
    ⟨f a, by rw [setAt_self]; exact hv, Nat.le_refl _, Or.inl rfl, fun j i y h h' => by omega⟩
    (by
      rintro k v hk1 hk2 ⟨x, g1, g2, g3, g4⟩
      obtain ⟨i, hi', hSi⟩ := h3 k hk1 hk2
      obtain ⟨y, hy⟩ := rd_isSome (v := w) (hS i a hSi)
      simp only [hi', hy, Option.bind_some]
      obtain ⟨v', e, hv'⟩ := g1.minTo haN y
      rw [setAt_same, setAt_setAt] at hv'
      refine ⟨v', e, min x y, hv', by omega, ?_, ?_⟩
      · rcases Nat.le_total x y with hxy | hxy
        · rw [Nat.min_eq_left hxy]; exact g3
        · rw [Nat.min_eq_right hxy]; exact Or.inr ⟨i, hSi, hy⟩
      · intro j i' y' hj1 hj2 hji hyy
        by_cases hjk : j = k
        · subst hjk
          cases (hi'.symm.trans hji : some i = some i')
          have := rd_congr_some hy hyy
          omega
        · have := g4 j i' y' hj1 (by omega) hji hyy
          omega)
  refine ⟨v', x, e, g1, g2, g3, ?_⟩
  intro i lo' hi' j y q1 q2 q3 q4 q5 q6
  cases q1; cases q2
  exact g4 j i y q3 q4 q5 q6

/-- The graph of the input arcs, by rank. -/
theorem CchOk.inputOf {n : Nat} {rt rh : List Nat} {c : Cch} {U : List Bool} (h : CchOk n rt rh c U) {a x y : Nat}
    (hx : rd c.upTail a = some x) (hy : rd c.upHead a = some y) (i : Nat) :
    (InputOf c.inputToCch U true i a ↔ rd rt i = some x ∧ rd rh i = some y) ∧
    (InputOf c.inputToCch U false i a ↔ rd rt i = some y ∧ rd rh i = some x) := by
  have hne : a ≠ invalidId := by have := rd_some_lt hx; have := h.small; omega
  have hxy := (h.graph.up.up x y ⟨a, hx, hy⟩).1
  have key := h.map.arc h.graph.up.sorted h.small hx hy hxy i
  unfold InputOf
  constructor
  · rw [← key.1]
    constructor
    · rintro ⟨h1, _, h2⟩; exact ⟨h1, h2⟩
    · rintro ⟨h1, h2⟩; exact ⟨h1, hne, h2⟩
  · rw [← key.2]
    constructor
    · rintro ⟨h1, _, h2⟩; exact ⟨h1, h2⟩
    · rintro ⟨h1, h2⟩; exact ⟨h1, hne, h2⟩

theorem extractArc_spec {n : Nat} {rt rh : List Nat} {c : Cch} {U : List Bool} (h : CchOk n rt rh c U) {w : List Nat}
    (hwl : w.length = rt.length) (hw : WeightsOk w) {m : Metric} {f b : Nat → Nat} (hm : MetricIs m c.upTail.length f b)
    {a x y : Nat} (hx : rd c.upTail a = some x) (hy : rd c.upHead a = some y) :
    ∃ m' v u, extractArc c w m a = some m' ∧ MetricIs m' c.upTail.length (setAt f a v) (setAt b a u) ∧
      IsMinArc (listArcs rt rh w) x y v ∧ IsMinArc (listArcs rt rh w) y x u := by
  have haN := rd_some_lt hx
  have hlen := h.graph.up.sorted.1
  obtain ⟨HB, EB, r1, l1, k1, r2, l2, k2, dF, dB⟩ := h.back.ok
  have hSF : ∀ i a, InputOf c.inputToCch U true i a → i < w.length := fun i a hS => by
    have := rd_some_lt hS.1; have := h.map.len; omega
  have hSB : ∀ i a, InputOf c.inputToCch U false i a → i < w.length := fun i a hS => by
    have := rd_some_lt hS.1; have := h.map.len; omega
  have toA : ∀ i v, InputOf c.inputToCch U true i a → rd w i = some v → listArcs rt rh w i x y v := by
    intro i v hS hv
    obtain ⟨q1, q2⟩ := (h.inputOf hx hy i).1.1 hS
    exact ⟨q1, q2, hv⟩
  have toB : ∀ i v, InputOf c.inputToCch U false i a → rd w i = some v → listArcs rt rh w i y x v := by
    intro i v hS hv
    obtain ⟨q1, q2⟩ := (h.inputOf hx hy i).2.1 hS
    exact ⟨q1, q2, hv⟩
  unfold extractArc
  rw [r1.isSet (by omega)]
  simp only [Option.bind_eq_bind, Option.bind_some]
  cases hHB : at' HB a with
  | false =>
    obtain ⟨F, eF, hF⟩ := hm.isF.wr haN infWeight
    obtain ⟨B, eB, hB⟩ := hm.isB.wr haN infWeight
    refine ⟨⟨F, B⟩, infWeight, infWeight, by simp [eF, eB], MetricIs.mk' hF hB, ⟨Nat.le_refl _, ?_, fun h => absurd h (Nat.lt_irrefl _)⟩,
      ⟨Nat.le_refl _, ?_, fun h => absurd h (Nat.lt_irrefl _)⟩⟩
    · rintro i v ⟨q1, q2, q3⟩
      exact absurd ((h.inputOf hx hy i).1.2 ⟨q1, q2⟩) (dF.none_ a hHB i)
    · rintro i v ⟨q1, q2, q3⟩
      exact absurd ((h.inputOf hx hy i).2.2 ⟨q1, q2⟩) (dB.none_ a hHB i)
  | true =>
    simp only [Bool.not_true, Bool.false_eq_true, if_false]
    rw [k1.toLocal hHB]
    simp only [Option.bind_some]
    obtain ⟨vf, ef, vf1, vf2, vf3⟩ := initFirst_spec dF hSF hw hHB
    obtain ⟨vb, eb, vb1, vb2, vb3⟩ := initFirst_spec dB hSB hw hHB
    obtain ⟨F, eF, hF⟩ := hm.isF.wr haN vf
    obtain ⟨B, eB, hB⟩ := hm.isB.wr haN vb
    simp only [ef, eb, eF, eB, Option.bind_some]
    rw [r2.isSet (by omega)]
    simp only [Option.bind_some]
    cases hEB : at' EB a with
    | false =>
      refine ⟨⟨F, B⟩, vf, vb, by simp, MetricIs.mk' hF hB, ⟨vf1, ?_, ?_⟩, ⟨vb1, ?_, ?_⟩⟩
      · rintro i v ⟨q1, q2, q3⟩
        have hS := (h.inputOf hx hy i).1.2 ⟨q1, q2⟩
        rcases dF.all a i hS with h1 | ⟨h1, _⟩
        · exact vf3 i v h1 hS q3
        · rw [hEB] at h1; cases h1
      · intro hlt
        obtain ⟨i, hS, hv⟩ := vf2 hlt
        exact ⟨i, toA i _ hS hv⟩
      · rintro i v ⟨q1, q2, q3⟩
        have hS := (h.inputOf hx hy i).2.2 ⟨q1, q2⟩
        rcases dB.all a i hS with h1 | ⟨h1, _⟩
        · exact vb3 i v h1 hS q3
        · rw [hEB] at h1; cases h1
      · intro hlt
        obtain ⟨i, hS, hv⟩ := vb2 hlt
        exact ⟨i, toB i _ hS hv⟩
    | true =>
      simp only [if_true]
      rw [k2.toLocal hEB]
      simp only [Option.bind_some]
      obtain ⟨F', xf, eF', hF', p1, p2, p3⟩ := initExtra_spec dF hSF hEB hF haN
      obtain ⟨B', xb, eB', hB', q1, q2, q3⟩ := initExtra_spec dB hSB hEB hB haN
      rw [setAt_setAt] at hF' hB'
      rw [setAt_same] at p1 p2 q1 q2
      refine ⟨⟨F', B'⟩, xf, xb, by simp [eF', eB'], MetricIs.mk' hF' hB', ⟨by omega, ?_, ?_⟩, ⟨by omega, ?_, ?_⟩⟩
      · rintro i v ⟨g1, g2, g3⟩
        have hS := (h.inputOf hx hy i).1.2 ⟨g1, g2⟩
        rcases dF.all a i hS with h1 | ⟨_, lo, hi, j, j1, j2, j3, j4, j5⟩
        · have := vf3 i v h1 hS g3; omega
        · exact p3 i lo hi j v j1 j2 j3 j4 j5 g3
      · intro hlt
        rcases p2 with p2 | ⟨i, hS, hv⟩
        · obtain ⟨i, hS, hv⟩ := vf2 (by omega)
          exact ⟨i, toA i _ hS (by rw [p2]; exact hv)⟩
        · exact ⟨i, toA i _ hS hv⟩
      · rintro i v ⟨g1, g2, g3⟩
        have hS := (h.inputOf hx hy i).2.2 ⟨g1, g2⟩
        rcases dB.all a i hS with h1 | ⟨_, lo, hi, j, j1, j2, j3, j4, j5⟩
        · have := vb3 i v h1 hS g3; omega
        · exact q3 i lo hi j v j1 j2 j3 j4 j5 g3
      · intro hlt
        rcases q2 with q2 | ⟨i, hS, hv⟩
        · obtain ⟨i, hS, hv⟩ := vb2 (by omega)
          exact ⟨i, toB i _ hS (by rw [q2]; exact hv)⟩
        · exact ⟨i, toB i _ hS hv⟩

/-- All arcs have their initial weights. -/
def InitOk (tail head : List Nat) (A : ArcRel) (f b : Nat → Nat) (a : Nat) : Prop :=
  ∀ x y, rd tail a = some x → rd head a = some y → IsMinArc A x y (f a) ∧ IsMinArc A y x (b a)

theorem extractAll_spec {n : Nat} {rt rh : List Nat} {c : Cch} {U : List Bool} (h : CchOk n rt rh c U) {w : List Nat}
    (hwl : w.length = rt.length) (hw : WeightsOk w) {m : Metric} (l1 : m.forward.length = c.upTail.length)
    (l2 : m.backward.length = c.upTail.length) :
    ∃ m' f b, extractAll c w m = some m' ∧ MetricIs m' c.upTail.length f b ∧
      ∀ a, a < c.upTail.length → InitOk c.upTail c.upHead (listArcs rt rh w) f b a := by
  have hlen := h.graph.up.sorted.1
  obtain ⟨m', e, f, b, h1, h2⟩ := forRange_inv (lo := 0) (hi := c.cchArcCount) (s := m) (f := extractArc c w)
    (fun k m => ∃ f b, MetricIs m c.upTail.length f b ∧
      ∀ a, a < k → InitOk c.upTail c.upHead (listArcs rt rh w) f b a) (Nat.zero_le _)
    ⟨_, _, metric_is l1 l2, fun a ha => absurd ha (Nat.not_lt_zero _)⟩
    (by
      rintro k m _ hk ⟨f, b, g1, g2⟩
      have hk' : k < c.upHead.length := hk
      obtain ⟨x, hx⟩ := rd_isSome (v := c.upTail) (i := k) (by omega)
      obtain ⟨y, hy⟩ := rd_isSome (v := c.upHead) hk'
      obtain ⟨m', v, u, e, q1, q2, q3⟩ := extractArc_spec h hwl hw g1 hx hy
      refine ⟨m', e, _, _, q1, ?_⟩
      intro a ha x' y' hx' hy'
      by_cases hak : a = k
      · subst hak
        rw [setAt_same, setAt_same]
        cases (hx.symm.trans hx' : some x = some x')
        cases (hy.symm.trans hy' : some y = some y')
        exact ⟨q2, q3⟩
      · rw [setAt_other _ _ hak, setAt_other _ _ hak]
        exact g2 a (by omega) x' y' hx' hy')
  refine ⟨m', f, b, e, h1, ?_⟩
  intro a ha
  exact h2 a (by show a < c.upHead.length; omega)

/-! ### Relaxing triangles -/

theorem relax_spec {m : Metric} {N : Nat} {f b : Nat → Nat} (hm : MetricIs m N f b)
    (hle : ∀ a, a < N → f a ≤ infWeight ∧ b a ≤ infWeight) {T : Tri} (h1 : T.bottom < N) (h2 : T.mid < N) (h3 : T.top < N)
    (hne : T.bottom ≠ T.top) :
    ∃ m', relax m T = some m' ∧ MetricIs m' N (setAt f T.top (min (f T.top) (b T.bottom + f T.mid)))
      (setAt b T.top (min (b T.top) (f T.bottom + b T.mid))) := by
  have hinf : infWeight = 2147483647 := rfl
  have a1 : add32 (b T.bottom) (f T.mid) = b T.bottom + f T.mid := by
    have := hle _ h1; have := hle _ h2; unfold add32 u32; omega
  have a2 : add32 (f T.bottom) (b T.mid) = f T.bottom + b T.mid := by
    have := hle _ h1; have := hle _ h2; unfold add32 u32; omega
  unfold relax
  simp only [hm.bwd _ h1, hm.fwd _ h2, Option.bind_eq_bind, Option.bind_some, a1]
  obtain ⟨F, eF, hF⟩ := hm.isF.minTo h3 (b T.bottom + f T.mid)
  simp only [eF, Option.bind_some, hF.2 _ h1, hm.bwd _ h2, setAt_other _ _ hne, a2]
  obtain ⟨B, eB, hB⟩ := hm.isB.minTo h3 (f T.bottom + b T.mid)
  simp only [eB, Option.bind_some]
  exact ⟨⟨F, B⟩, rfl, MetricIs.mk' hF hB⟩

theorem relax_noop {m : Metric} {N : Nat} {f b : Nat → Nat} (hm : MetricIs m N f b)
    (hle : ∀ a, a < N → f a ≤ infWeight ∧ b a ≤ infWeight) {T : Tri} (h1 : T.bottom < N) (h2 : T.mid < N) (h3 : T.top < N)
    (q1 : infWeight ≤ b T.bottom + f T.mid) (q2 : infWeight ≤ f T.bottom + b T.mid) : relax m T = some m := by
  have hinf : infWeight = 2147483647 := rfl
  have a1 : add32 (b T.bottom) (f T.mid) = b T.bottom + f T.mid := by
    have := hle _ h1; have := hle _ h2; unfold add32 u32; omega
  have a2 : add32 (f T.bottom) (b T.mid) = f T.bottom + b T.mid := by
    have := hle _ h1; have := hle _ h2; unfold add32 u32; omega
  have g1 : ¬ b T.bottom + f T.mid < f T.top := by have := hle _ h3; omega
  have g2 : ¬ f T.bottom + b T.mid < b T.top := by have := hle _ h3; omega
  unfold relax minTo
  simp only [hm.bwd _ h1, hm.fwd _ h2, hm.fwd _ h1, hm.bwd _ h2, hm.fwd _ h3, hm.bwd _ h3, Option.bind_eq_bind, Option.bind_some,
    a1, a2, if_neg g1, if_neg g2]

/-- The weights while the triangles `D` have been relaxed. -/
structure CusInv (tail head : List Nat) (A : ArcRel) (D : Tri → Prop) (f b : Nat → Nat) : Prop where
  le : ∀ a, a < tail.length → f a ≤ infWeight ∧ b a ≤ infWeight
  base : ∀ a x y, rd tail a = some x → rd head a = some y → ∀ i w, (A i x y w → f a ≤ w) ∧ (A i y x w → b a ≤ w)
  sound : ∀ a x y, rd tail a = some x → rd head a = some y →
    (f a < infWeight → ∃ p, InnerWalk A (fun z => z < x) x p y (f a)) ∧
    (b a < infWeight → ∃ p, InnerWalk A (fun z => z < x) y p x (b a))
  done : ∀ T x y z, TriAt tail head T x y z → D T → f T.top ≤ b T.bottom + f T.mid ∧ b T.top ≤ f T.bottom + b T.mid

theorem CusInv.of_init {tail head : List Nat} {A : ArcRel} {f b : Nat → Nat} (hl : tail.length = head.length)
    (h : ∀ a, a < tail.length → InitOk tail head A f b a) : CusInv tail head A (fun _ => False) f b := by
  refine ⟨?_, ?_, ?_, fun T x y z _ h => h.elim⟩
  · intro a ha
    obtain ⟨x, hx⟩ := rd_isSome (v := tail) ha
    obtain ⟨y, hy⟩ := rd_isSome (v := head) (i := a) (by omega)
    obtain ⟨h1, h2⟩ := h a ha x y hx hy
    exact ⟨h1.1, h2.1⟩
  · intro a x y hx hy i w
    obtain ⟨h1, h2⟩ := h a (rd_some_lt hx) x y hx hy
    exact ⟨h1.2.1 i w, h2.2.1 i w⟩
  · intro a x y hx hy
    obtain ⟨h1, h2⟩ := h a (rd_some_lt hx) x y hx hy
    constructor
    · intro hlt
      obtain ⟨i, hi⟩ := h1.2.2 hlt
      exact ⟨_, .edge hi⟩
    · intro hlt
      obtain ⟨i, hi⟩ := h2.2.2 hlt
      exact ⟨_, .edge hi⟩

theorem CusInv.mono {tail head : List Nat} {A : ArcRel} {D D' : Tri → Prop} {f b : Nat → Nat} (h : CusInv tail head A D f b)
    (hD : ∀ T x y z, TriAt tail head T x y z → D' T → D T) : CusInv tail head A D' f b :=
  ⟨h.le, h.base, h.sound, fun T x y z h1 h2 => h.done T x y z h1 (hD T x y z h1 h2)⟩

/-- Walks for the two lower arcs of a triangle give a walk for its upper arc. -/
theorem CusInv.walk {tail head : List Nat} {A : ArcRel} {D : Tri → Prop} {f b : Nat → Nat} (h : CusInv tail head A D f b)
    {bot mid x y z : Nat} (b1 : rd tail bot = some x) (b2 : rd head bot = some y) (m1 : rd tail mid = some x)
    (m2 : rd head mid = some z) (hxy : x < y) :
    (b bot + f mid < infWeight → ∃ p, InnerWalk A (fun u => u < y) y p z (b bot + f mid)) ∧
    (f bot + b mid < infWeight → ∃ p, InnerWalk A (fun u => u < y) z p y (f bot + b mid)) := by
  constructor
  · intro hlt
    obtain ⟨p1, h1⟩ := (h.sound bot x y b1 b2).2 (by omega)
    obtain ⟨p2, h2⟩ := (h.sound mid x z m1 m2).1 (by omega)
    exact ⟨_, innerWalk_append (innerWalk_lt h1 (by omega)) hxy (innerWalk_lt h2 (by omega))⟩
  · intro hlt
    obtain ⟨p1, h1⟩ := (h.sound bot x y b1 b2).1 (by omega)
    obtain ⟨p2, h2⟩ := (h.sound mid x z m1 m2).2 (by omega)
    rw [Nat.add_comm]
    exact ⟨_, innerWalk_append (innerWalk_lt h2 (by omega)) hxy (innerWalk_lt h1 (by omega))⟩

/-- Lowering the weight of the upper arc of a triangle, in one direction: `f'`, `b'` lie between the old values and the
relaxed ones. -/
theorem CusInv.step {n : Nat} {fo tail head : List Nat} (u : UpOk n fo head tail) {A : ArcRel} {D : Tri → Prop}
    {f b : Nat → Nat} (h : CusInv tail head A D f b) {T0 : Tri} {x0 y0 z0 : Nat} (hT : TriAt tail head T0 x0 y0 z0)
    (hD : ∀ T x y z, TriAt tail head T x y z → D T → x < y0) :
    CusInv tail head A (fun T => D T ∨ T = T0) (setAt f T0.top (min (f T0.top) (b T0.bottom + f T0.mid)))
      (setAt b T0.top (min (b T0.top) (f T0.bottom + b T0.mid))) := by
  have hxy0 := (u.up x0 y0 ⟨T0.bottom, hT.bt, hT.bh⟩).1
  have hw := h.walk hT.bt hT.bh hT.mt hT.mh hxy0
  have hother : ∀ a x, rd tail a = some x → x < y0 → a ≠ T0.top := by
    intro a x ha hx hc
    subst hc
    have := rd_congr_some ha hT.tt
    omega
  have hbot := hother _ _ hT.bt hxy0
  have hmid := hother _ _ hT.mt hxy0
  refine ⟨?_, ?_, ?_, ?_⟩
  · intro a ha
    have := h.le a ha
    unfold setAt
    split
    · subst_vars; constructor <;> omega
    · exact this
  · intro a x y hx hy i w
    have := h.base a x y hx hy i w
    unfold setAt
    split
    · subst_vars
      exact ⟨fun q => by have := this.1 q; omega, fun q => by have := this.2 q; omega⟩
    · exact this
  · intro a x y hx hy
    by_cases ha : a = T0.top
    · subst ha
      rw [setAt_same, setAt_same]
      have e1 := rd_congr_some hx hT.tt
      have e2 := rd_congr_some hy hT.th
      subst e1; subst e2
      have old := h.sound T0.top x y hx hy
      constructor
      · intro hlt
        rcases Nat.le_total (f T0.top) (b T0.bottom + f T0.mid) with hc | hc
        · rw [Nat.min_eq_left hc] at hlt ⊢; exact old.1 hlt
        · rw [Nat.min_eq_right hc] at hlt ⊢; exact hw.1 hlt
      · intro hlt
        rcases Nat.le_total (b T0.top) (f T0.bottom + b T0.mid) with hc | hc
        · rw [Nat.min_eq_left hc] at hlt ⊢; exact old.2 hlt
        · rw [Nat.min_eq_right hc] at hlt ⊢; exact hw.2 hlt
    · rw [setAt_other _ _ ha, setAt_other _ _ ha]
      exact h.sound a x y hx hy
  · intro T x y z hTT hDT
    by_cases hT0 : T = T0
    · subst hT0
      rw [setAt_same, setAt_same, setAt_other _ _ hbot, setAt_other _ _ hbot, setAt_other _ _ hmid, setAt_other _ _ hmid]
      omega
    · have hDT' : D T := hDT.resolve_right hT0
      have hx := hD T x y z hTT hDT'
      have hb' := hother _ _ hTT.bt hx
      have hm' := hother _ _ hTT.mt hx
      have old := h.done T x y z hTT hDT'
      rw [setAt_other _ _ hb', setAt_other _ _ hb', setAt_other _ _ hm', setAt_other _ _ hm']
      by_cases htop : T.top = T0.top
      · rw [htop, setAt_same, setAt_same]
        rw [htop] at old
        omega
      · rw [setAt_other _ _ htop, setAt_other _ _ htop]; exact old

/-- The weight from `x` to `y` is stored and at most `l`. -/
def ValLe (tail head : List Nat) (f b : Nat → Nat) (x y l : Nat) : Prop :=
  (x < y → ∃ a, rd tail a = some x ∧ rd head a = some y ∧ f a ≤ l) ∧
  (y < x → ∃ a, rd tail a = some y ∧ rd head a = some x ∧ b a ≤ l)

theorem CusInv.complete {tail head : List Nat} {A : ArcRel} {f b : Nat → Nat} (h : CusInv tail head A (fun _ => True) f b)
    (keep : ∀ x y, x < y → InnerPath (fun x y => ∃ i w, A i x y w) (fun z => z < x) x y ∨
      InnerPath (fun x y => ∃ i w, A i x y w) (fun z => z < x) y x → HasArc tail head x y) :
    ∀ (r x y : Nat) (p : List Nat) (l : Nat), r ≤ x → r ≤ y → x ≠ y → InnerWalk A (fun z => z < r) x p y l →
      ValLe tail head f b x y l := by
  have hpath : ∀ {I : Nat → Prop} {x y l : Nat} {p : List Nat}, InnerWalk A I x p y l →
      InnerPath (fun x y => ∃ i w, A i x y w) I x y := fun hp => innerWalk_path (fun a x y w ha => ⟨a, w, ha⟩) hp
  have arc : ∀ {r x y l : Nat} {p : List Nat}, r ≤ x → r ≤ y → InnerWalk A (fun z => z < r) x p y l →
      (x < y → HasArc tail head x y) ∧ (y < x → HasArc tail head y x) := by
    intro r x y l p hx hy hp
    exact ⟨fun hlt => keep x y hlt (Or.inl (hpath (innerWalk_lt hp hx))),
      fun hlt => keep y x hlt (Or.inr (hpath (innerWalk_lt hp hy)))⟩
  intro r
  induction r with
  | zero =>
    intro x y p l hx hy hne hp
    have ha := arc hx hy hp
    have hedge : ∃ i, A i x y l := by
      cases hp with
      | edge he => exact ⟨_, he⟩
      | step _ hz _ => exact absurd hz (Nat.not_lt_zero _)
    obtain ⟨i, hi⟩ := hedge
    constructor
    · intro hlt
      obtain ⟨a, h1, h2⟩ := ha.1 hlt
      exact ⟨a, h1, h2, (h.base a x y h1 h2 i l).1 hi⟩
    · intro hlt
      obtain ⟨a, h1, h2⟩ := ha.2 hlt
      exact ⟨a, h1, h2, (h.base a y x h1 h2 i l).2 hi⟩
  | succ r ih =>
    intro x y p l hx hy hne hp
    have ha := arc hx hy hp
    rcases innerWalk_split hp with hp' | ⟨p1, l1, p2, l2, w1, w2, hle⟩
    · exact ih x y p l (by omega) (by omega) hne hp'
    · have v1 := ih x r p1 l1 (by omega) (Nat.le_refl _) (by omega) w1
      have v2 := ih r y p2 l2 (Nat.le_refl _) (by omega) (by omega) w2
      obtain ⟨c1, c1t, c1h, c1l⟩ := v1.2 (by omega)
      obtain ⟨c2, c2t, c2h, c2l⟩ := v2.1 (by omega)
      constructor
      · intro hlt
        obtain ⟨a, h1, h2⟩ := ha.1 hlt
        have := (h.done ⟨c1, c2, a⟩ r x y ⟨c1t, c1h, c2t, c2h, h1, h2⟩ trivial).1
        refine ⟨a, h1, h2, ?_⟩
        show f a ≤ l
        have e : f a ≤ b c1 + f c2 := this
        omega
      · intro hlt
        obtain ⟨a, h1, h2⟩ := ha.2 hlt
        have := (h.done ⟨c2, c1, a⟩ r y x ⟨c2t, c2h, c1t, c1h, h1, h2⟩ trivial).2
        refine ⟨a, h1, h2, ?_⟩
        have e : b a ≤ f c2 + b c1 := this
        omega

theorem listArcs_hasArc {rt rh w : List Nat} (h1 : rt.length = rh.length) (h2 : w.length = rt.length) (x y : Nat) :
    (∃ i v, listArcs rt rh w i x y v) ↔ HasArc rt rh x y := by
  constructor
  · rintro ⟨i, v, q1, q2, _⟩
    exact ⟨i, q1, q2⟩
  · rintro ⟨i, q1, q2⟩
    obtain ⟨v, hv⟩ := rd_isSome (v := w) (i := i) (by have := rd_some_lt q1; omega)
    exact ⟨i, v, q1, q2, hv⟩

theorem CchOk.lenIn {n : Nat} {rt rh : List Nat} {c : Cch} {U : List Bool} (h : CchOk n rt rh c U) : rt.length = rh.length := by
  have h1 := h.map.len
  have h2 := h.map.lenH
  omega

theorem CchOk.keep' {n : Nat} {rt rh : List Nat} {c : Cch} {U : List Bool} (h : CchOk n rt rh c U) {w : List Nat}
    (hwl : w.length = rt.length) (x y : Nat) (hlt : x < y)
    (hp : InnerPath (fun x y => ∃ i v, listArcs rt rh w i x y v) (fun z => z < x) x y ∨
      InnerPath (fun x y => ∃ i v, listArcs rt rh w i x y v) (fun z => z < x) y x) : HasArc c.upTail c.upHead x y := by
  apply h.keep x y ⟨hlt, ?_⟩
  have e := listArcs_hasArc h.lenIn hwl
  rcases hp with hp | hp
  · exact Or.inl ((innerPath_congr e).1 hp)
  · exact Or.inr ((innerPath_congr e).1 hp)

/-- Fully relaxed weights are the shortest walks through lower nodes. -/
theorem CusInv.isMin {n : Nat} {rt rh : List Nat} {c : Cch} {U : List Bool} (h : CchOk n rt rh c U) {w : List Nat}
    (hwl : w.length = rt.length) {f b : Nat → Nat} (hc : CusInv c.upTail c.upHead (listArcs rt rh w) (fun _ => True) f b)
    {a x y : Nat} (hx : rd c.upTail a = some x) (hy : rd c.upHead a = some y) :
    IsInnerMin (listArcs rt rh w) (fun z => z < x) infWeight x y (f a) ∧
    IsInnerMin (listArcs rt rh w) (fun z => z < x) infWeight y x (b a) := by
  have hxy := (h.graph.up.up x y ⟨a, hx, hy⟩).1
  have comp := hc.complete (h.keep' hwl)
  have hle := hc.le a (rd_some_lt hx)
  have hs := hc.sound a x y hx hy
  refine ⟨⟨hle.1, ?_, ?_⟩, ⟨hle.2, ?_, ?_⟩⟩
  · intro p l hp
    obtain ⟨a', h1, h2, h3⟩ := (comp x x y p l (Nat.le_refl _) (by omega) (by omega) hp).1 hxy
    cases h.graph.up.sorted.inj hx hy h1 h2
    exact h3
  · rcases Nat.lt_or_ge (f a) infWeight with hlt | hge
    · exact Or.inr (hs.1 hlt)
    · exact Or.inl (by omega)
  · intro p l hp
    obtain ⟨a', h1, h2, h3⟩ := (comp x y x p l (by omega) (Nat.le_refl _) (by omega) hp).2 hxy
    cases h.graph.up.sorted.inj hx hy h1 h2
    exact h3
  · rcases Nat.lt_or_ge (b a) infWeight with hlt | hge
    · exact Or.inr (hs.2 hlt)
    · exact Or.inl (by omega)

/-! ### `customize` -/

/-- `arc_id_cache` while node `x` is processed. -/
structure CacheOk (c : Cch) (n : Nat) (x : Nat) (cache : List Nat) : Prop where
  len : cache.length = n
  lt : ∀ z t, rd cache z = some t → t = 0 ∨ t < c.upTail.length
  at_ : ∀ a z, rd c.upTail a = some x → rd c.upHead a = some z → rd cache z = some a

theorem relaxUp_spec {n : Nat} {rt rh : List Nat} {c : Cch} {U : List Bool} (h : CchOk n rt rh c U) {w : List Nat}
    (hwl : w.length = rt.length) {x yx y : Nat} {cache : List Nat} (hcache : CacheOk c n x cache)
    (b1 : rd c.upTail yx = some y) (b2 : rd c.upHead yx = some x) :
    ∀ (k : Nat) (m : Metric) (D : Tri → Prop) (f b : Nat → Nat), cLt c.upTail y + k ≤ cLt c.upTail (y + 1) →
      MetricIs m c.upTail.length f b → CusInv c.upTail c.upHead (listArcs rt rh w) D f b →
      (∀ T bn mn tn, TriAt c.upTail c.upHead T bn mn tn → D T → bn < x) →
      ∃ m' f' b', relaxUp c cache x yx (cLt c.upTail y) k m = some m' ∧ MetricIs m' c.upTail.length f' b' ∧
        CusInv c.upTail c.upHead (listArcs rt rh w) (fun T => D T ∨ (T.bottom = yx ∧ T.mid < cLt c.upTail y + k)) f' b' := by
  have hyx := (h.graph.up.up y x ⟨yx, b1, b2⟩).1
  have hs := h.graph.up.sorted.pairwise
  have hlen := h.graph.up.sorted.1
  intro k
  induction k with
  | zero =>
    intro m D f b _ hm hc _
    refine ⟨m, f, b, rfl, hm, hc.mono ?_⟩
    rintro T bn mn tn hT (hD | ⟨q1, q2⟩)
    · exact hD
    · have e : bn = y := rd_congr_some (by rw [← q1]; exact hT.bt) b1
      subst e
      have := ((cLt_range hs).1 hT.mt).1
      omega
  | succ k ih =>
    intro m D f b hk hm hc hD
    have hmt : rd c.upTail (cLt c.upTail y + k) = some y := (cLt_range hs).2 ⟨by omega, by omega⟩
    obtain ⟨z, hmh⟩ := rd_isSome (v := c.upHead) (i := cLt c.upTail y + k) (by have := rd_some_lt hmt; omega)
    obtain ⟨hyz, hzn⟩ := h.graph.up.up y z ⟨_, hmt, hmh⟩
    unfold relaxUp
    simp only [hmh, Option.bind_eq_bind, Option.bind_some]
    by_cases hzx : z ≤ x
    · rw [if_pos hzx]
      refine ⟨m, f, b, rfl, hm, hc.mono ?_⟩
      rintro T bn mn tn hT (hDT | ⟨q1, q2⟩)
      · exact hDT
      · exfalso
        have e : bn = y := rd_congr_some (by rw [← q1]; exact hT.bt) b1
        subst e
        have e2 : mn = x := rd_congr_some (by rw [← q1]; exact hT.bh) b2
        subst e2
        have hmt2 := (h.graph.up.up mn tn ⟨_, hT.tt, hT.th⟩).1
        rcases Nat.lt_or_ge T.mid (cLt c.upTail bn + k) with hlt | hge
        · have := (h.graph.up.sorted.row bn).lt T.mid (cLt c.upTail bn + k) tn z ((cLt_range hs).1 hT.mt).1 hlt (by omega) hT.mh hmh
          omega
        · have e3 : T.mid = cLt c.upTail bn + k := by omega
          have := rd_congr_some hT.mh (by rw [e3]; exact hmh)
          omega
    · rw [if_neg hzx]
      obtain ⟨t, ht⟩ := rd_isSome (v := cache) (i := z) (by rw [hcache.len]; exact hzn)
      simp only [ht, Option.bind_some]
      have hN1 := rd_some_lt b1
      have hN2 := rd_some_lt hmt
      have htN : t < c.upTail.length := by rcases hcache.lt z t ht with h0 | h0 <;> omega
      by_cases harc : HasArc c.upTail c.upHead x z
      · obtain ⟨a, ha1, ha2⟩ := harc
        cases (ht.symm.trans (hcache.at_ a z ha1 ha2) : some t = some a)
        have hT0 : TriAt c.upTail c.upHead ⟨yx, cLt c.upTail y + k, t⟩ y x z := ⟨b1, b2, hmt, hmh, ha1, ha2⟩
        have hne : yx ≠ t := by
          intro e; subst e
          have := rd_congr_some b1 ha1; omega
        obtain ⟨m1, e1, hm1⟩ := relax_spec hm hc.le (T := ⟨yx, cLt c.upTail y + k, t⟩) hN1 hN2 htN hne
        rw [e1]
        simp only [Option.bind_some]
        have hc1 := hc.step h.graph.up hT0 hD
        obtain ⟨m', f', b', e', hm', hc'⟩ := ih m1 _ _ _ (by omega) hm1 hc1 (by
          rintro T bn mn tn hT (hDT | rfl)
          · exact hD T bn mn tn hT hDT
          · have : bn = y := rd_congr_some hT.bt b1
            omega)
        refine ⟨m', f', b', e', hm', hc'.mono ?_⟩
        rintro T bn mn tn hT (hDT | ⟨q1, q2⟩)
        · exact Or.inl (Or.inl hDT)
        · rcases Nat.lt_or_ge T.mid (cLt c.upTail y + k) with hlt | hge
          · exact Or.inr ⟨q1, hlt⟩
          · refine Or.inl (Or.inr ?_)
            have e3 : T.mid = cLt c.upTail y + k := by omega
            have e4 : tn = z := rd_congr_some hT.mh (by rw [e3]; exact hmh)
            have e5 : mn = x := rd_congr_some hT.bh (by rw [q1]; exact b2)
            subst e4; subst e5
            have e6 : T.top = t := h.graph.up.sorted.inj hT.tt hT.th ha1 ha2
            cases T
            simp only at q1 e3 e6
            subst q1; subst e3; subst e6
            rfl
      · have hw := hc.walk b1 b2 hmt hmh hyx
        have hpath : ∀ {I : Nat → Prop} {x y l : Nat} {p : List Nat}, InnerWalk (listArcs rt rh w) I x p y l →
            InnerPath (fun x y => ∃ i v, listArcs rt rh w i x y v) I x y :=
          fun hp => innerWalk_path (fun a x y w ha => ⟨a, w, ha⟩) hp
        have n1 : infWeight ≤ b yx + f (cLt c.upTail y + k) := by
          by_contra hlt
          obtain ⟨p, hp⟩ := hw.1 (by omega)
          exact harc (h.keep' hwl x z (by omega) (Or.inl (hpath hp)))
        have n2 : infWeight ≤ f yx + b (cLt c.upTail y + k) := by
          by_contra hlt
          obtain ⟨p, hp⟩ := hw.2 (by omega)
          exact harc (h.keep' hwl x z (by omega) (Or.inr (hpath hp)))
        rw [relax_noop hm hc.le (T := ⟨yx, cLt c.upTail y + k, t⟩) hN1 hN2 htN n1 n2]
        simp only [Option.bind_some]
        obtain ⟨m', f', b', e', hm', hc'⟩ := ih m D f b (by omega) hm hc hD
        refine ⟨m', f', b', e', hm', hc'.mono ?_⟩
        rintro T bn mn tn hT (hDT | ⟨q1, q2⟩)
        · exact Or.inl hDT
        · rcases Nat.lt_or_ge T.mid (cLt c.upTail y + k) with hlt | hge
          · exact Or.inr ⟨q1, hlt⟩
          · exfalso
            have e3 : T.mid = cLt c.upTail y + k := by omega
            have e4 : tn = z := rd_congr_some hT.mh (by rw [e3]; exact hmh)
            have e5 : mn = x := rd_congr_some hT.bh (by rw [q1]; exact b2)
            subst e4; subst e5
            exact harc ⟨_, hT.tt, hT.th⟩

theorem cacheRow_spec {n : Nat} {rt rh : List Nat} {c : Cch} {U : List Bool} (h : CchOk n rt rh c U) {x : Nat} {cache : List Nat}
    (hl : cache.length = n) (hlt : ∀ z t, rd cache z = some t → t = 0 ∨ t < c.upTail.length) :
    ∃ cache', forRange (cLt c.upTail x) (cLt c.upTail (x + 1)) cache (cacheArc c) = some cache' ∧ CacheOk c n x cache' := by
  have hs := h.graph.up.sorted.pairwise
  have hlen := h.graph.up.sorted.1
  obtain ⟨cache', e, h1, h2, h3⟩ := forRange_inv (lo := cLt c.upTail x) (hi := cLt c.upTail (x + 1)) (s := cache) (f := cacheArc c)
    (fun k cache => cache.length = n ∧ (∀ z t, rd cache z = some t → t = 0 ∨ t < c.upTail.length) ∧
      ∀ a z, a < k → rd c.upTail a = some x → rd c.upHead a = some z → rd cache z = some a) (cLt_mono _ (by omega))
    ⟨hl, hlt, fun a z ha hx _ => by have := ((cLt_range hs).1 hx).1; omega⟩
    (by
      rintro k cache hk1 hk2 ⟨g1, g2, g3⟩
      have hkt : rd c.upTail k = some x := (cLt_range hs).2 ⟨hk1, hk2⟩
      have hkN := rd_some_lt hkt
      obtain ⟨z, hkh⟩ := rd_isSome (v := c.upHead) (i := k) (by omega)
      have hzn := (h.graph.up.up x z ⟨k, hkt, hkh⟩).2
      unfold cacheArc
      simp only [hkh, Option.bind_eq_bind, Option.bind_some]
      refine ⟨_, wr_lt (by omega), by simpa using g1, ?_, ?_⟩
      · intro z' t ht
        rw [rd_set (by omega)] at ht
        split at ht
        · cases ht; exact Or.inr hkN
        · exact g2 z' t ht
      · intro a z' ha hx hz
        rw [rd_set (by omega)]
        by_cases hzz : z' = z
        · subst hzz
          rw [if_pos rfl, h.graph.up.sorted.inj hx hz hkt hkh]
        · rw [if_neg hzz]
          have : a ≠ k := by
            intro e; subst e
            exact hzz (rd_congr_some hz hkh)
          exact g3 a z' (by omega) hx hz)
  exact ⟨cache', e, h1, h2, fun a z ha hz => h3 a z ((cLt_range hs).1 ha).2 ha hz⟩

theorem customizeNode_spec {n : Nat} {rt rh : List Nat} {c : Cch} {U : List Bool} (h : CchOk n rt rh c U) {w : List Nat}
    (hwl : w.length = rt.length) {x : Nat} (hx : x < n) {cache : List Nat} {m : Metric} {f b : Nat → Nat} (hl : cache.length = n)
    (hlt : ∀ z t, rd cache z = some t → t = 0 ∨ t < c.upTail.length) (hm : MetricIs m c.upTail.length f b)
    (hc : CusInv c.upTail c.upHead (listArcs rt rh w) (fun T => ∀ mn, rd c.upHead T.bottom = some mn → mn < x) f b) :
    ∃ cache' m' f' b', customizeNode c (cache, m) x = some (cache', m') ∧ cache'.length = n ∧
      (∀ z t, rd cache' z = some t → t = 0 ∨ t < c.upTail.length) ∧ MetricIs m' c.upTail.length f' b' ∧
      CusInv c.upTail c.upHead (listArcs rt rh w) (fun T => ∀ mn, rd c.upHead T.bottom = some mn → mn < x + 1) f' b' := by
  obtain ⟨db, de, d1, d2, d3, d4, d5, d6, d7⟩ := h.graph.downRow (y := x) hx
  obtain ⟨cache', e, hcache⟩ := cacheRow_spec h (x := x) hl hlt
  have hidx := h.graph.up.idx.2
  have hup : ∀ {T : Tri} {bn mn tn : Nat}, TriAt c.upTail c.upHead T bn mn tn → bn < mn := fun hT =>
    (h.graph.up.up _ _ ⟨_, hT.bt, hT.bh⟩).1
  obtain ⟨m', em, f', b', hm', hc'⟩ := forRange_inv (lo := db) (hi := de) (s := m) (f := relaxDown c cache' x)
    (fun k m => ∃ f b, MetricIs m c.upTail.length f b ∧ CusInv c.upTail c.upHead (listArcs rt rh w)
      (fun T => (∀ mn, rd c.upHead T.bottom = some mn → mn < x) ∨ ∃ d, db ≤ d ∧ d < k ∧ rd c.downToUp d = some T.bottom) f b) d3
    ⟨f, b, hm, hc.mono (by
      rintro T bn mn tn hT (hD | ⟨d, q1, q2, _⟩)
      · exact hD
      · omega)⟩
    (by
      rintro k m hk1 hk2 ⟨f, b, hm, hc⟩
      obtain ⟨yx, y, q1, q2, q3, q4⟩ := d6 k hk1 hk2
      have hyn := h.graph.up.tail_lt y (mem_iff_rd.2 ⟨_, q3⟩)
      unfold relaxDown
      simp only [q1, q2, hidx y (by omega), hidx (y + 1) (by omega), Option.bind_eq_bind, Option.bind_some]
      have hmono := cLt_mono c.upTail (show y ≤ y + 1 by omega)
      obtain ⟨m', f', b', e', hm', hc'⟩ := relaxUp_spec h hwl hcache q3 q4 (cLt c.upTail (y + 1) - cLt c.upTail y) m _ f b
        (by omega) hm hc (by
          rintro T bn mn tn hT (hD | ⟨d, g1, g2, g3⟩)
          · have := hD mn hT.bh; have := hup hT; omega
          · obtain ⟨a', x', r1, r2, r3, r4⟩ := d6 d g1 (by omega)
            cases (g3.symm.trans r1 : some T.bottom = some a')
            have := rd_congr_some hT.bh r4
            have := hup hT; omega)
      refine ⟨m', e', f', b', hm', hc'.mono ?_⟩
      rintro T bn mn tn hT (hD | ⟨d, g1, g2, g3⟩)
      · exact Or.inl (Or.inl hD)
      · by_cases hdk : d = k
        · subst hdk
          cases (g3.symm.trans q1 : some T.bottom = some yx)
          refine Or.inr ⟨rfl, ?_⟩
          have e1 : bn = y := rd_congr_some hT.bt q3
          subst e1
          have := ((cLt_range h.graph.up.sorted.pairwise).1 hT.mt).2
          omega
        · exact Or.inl (Or.inr ⟨d, g1, by omega, g3⟩))
  refine ⟨cache', m', f', b', ?_, hcache.len, hcache.lt, hm', hc'.mono ?_⟩
  · unfold customizeNode
    simp only [hidx x (by omega), hidx (x + 1) (by omega), e, d1, d2, em, Option.bind_eq_bind, Option.bind_some]
  · intro T bn mn tn hT hD
    have hmn := hD mn hT.bh
    by_cases hmx : mn = x
    · subst hmx
      obtain ⟨d, g1, g2, g3, g4⟩ := d7 T.bottom bn hT.bt hT.bh
      exact Or.inr ⟨d, g1, g2, g3⟩
    · refine Or.inl ?_
      intro mn' hmn'
      have := rd_congr_some hmn' hT.bh
      omega

/-- All debug checks after a customization hold. -/
theorem verifyAll_spec {n : Nat} {c : Cch} (g : c.GraphOk n) {A : ArcRel} {m : Metric} {f b : Nat → Nat}
    (hm : MetricIs m c.upTail.length f b) (hc : CusInv c.upTail c.upHead A (fun _ => True) f b) : verifyAll c m = some () := by
  have hinf : infWeight = 2147483647 := rfl
  have hlen := g.up.sorted.1
  obtain ⟨u, e, _⟩ := forRange_inv (lo := 0) (hi := c.cchArcCount) (s := ()) (f := verifyArc c m) (fun _ _ => True)
    (Nat.zero_le _) trivial (by
      intro a u _ ha _
      have ha' : a < c.upHead.length := ha
      obtain ⟨y, hy⟩ := rd_isSome (v := c.upHead) ha'
      obtain ⟨x, hx⟩ := rd_isSome (v := c.upTail) (i := a) (by omega)
      obtain ⟨l, el, hl⟩ := upperTriangles_spec g.up hx hy
      unfold verifyArc
      simp only [el, Option.bind_eq_bind, Option.bind_some]
      obtain ⟨u', e', _⟩ := forEach_inv (f := verifyTri m) (fun _ _ => True) l [] () trivial (by
        intro pre T post u hsplit _ _
        have hTl : T ∈ l := by rw [List.nil_append] at hsplit; rw [hsplit]; simp
        obtain ⟨_, z, hT⟩ := (hl T).1 hTl
        have h1 := rd_some_lt hT.bt
        have h2 := rd_some_lt hT.mt
        have h3 := rd_some_lt hT.tt
        have a1 : add32 (b T.bottom) (f T.mid) = b T.bottom + f T.mid := by
          have := hc.le _ h1; have := hc.le _ h2; unfold add32 u32; omega
        have a2 : add32 (f T.bottom) (b T.mid) = f T.bottom + b T.mid := by
          have := hc.le _ h1; have := hc.le _ h2; unfold add32 u32; omega
        have hd := hc.done T x y z hT trivial
        refine ⟨(), ?_, trivial⟩
        unfold verifyTri
        simp only [hm.fwd _ h1, hm.fwd _ h2, hm.fwd _ h3, hm.bwd _ h1, hm.bwd _ h2, hm.bwd _ h3, Option.bind_eq_bind, Option.bind_some,
          a1, a2, decide_eq_true hd.1, decide_eq_true hd.2, check_true])
      exact ⟨u', e', trivial⟩)
  exact e

/-- `customize` always succeeds and relaxes all triangles. -/
theorem customize_inv {n : Nat} {rt rh : List Nat} {c : Cch} {U : List Bool} (h : CchOk n rt rh c U) {w : List Nat}
    (hwl : w.length = rt.length) (hw : WeightsOk w) {m : Metric} (l1 : m.forward.length = c.upTail.length)
    (l2 : m.backward.length = c.upTail.length) :
    ∃ m' f b, m.customize c w = some m' ∧ MetricIs m' c.upTail.length f b ∧
      CusInv c.upTail c.upHead (listArcs rt rh w) (fun _ => True) f b := by
  obtain ⟨m1, f1, b1, e1, hm1, hi1⟩ := extractAll_spec h hwl hw l1 l2
  have hc1 := CusInv.of_init h.graph.up.sorted.1 hi1
  obtain ⟨⟨cache, m2⟩, e2, g1, g2, f2, b2, hm2, hc2⟩ := forRange_inv (lo := 0) (hi := c.nodeCount)
    (s := (List.replicate c.nodeCount 0, m1)) (f := customizeNode c)
    (fun k s => s.1.length = n ∧ (∀ z t, rd s.1 z = some t → t = 0 ∨ t < c.upTail.length) ∧
      ∃ f b, MetricIs s.2 c.upTail.length f b ∧
        CusInv c.upTail c.upHead (listArcs rt rh w) (fun T => ∀ mn, rd c.upHead T.bottom = some mn → mn < k) f b)
    (Nat.zero_le _)
    ⟨by rw [List.length_replicate]; exact h.nodes, fun z t ht => by
        have hz := rd_some_lt ht
        rw [List.length_replicate] at hz
        change rd (List.replicate c.nodeCount 0) z = some t at ht
        rw [rd_replicate hz] at ht
        cases ht
        exact Or.inl rfl, f1, b1, hm1, hc1.mono (fun T bn mn tn hT hD => absurd (hD mn hT.bh) (Nat.not_lt_zero _))⟩
    (by
      rintro k ⟨cache, m⟩ _ hk ⟨g1, g2, f, b, hm, hc⟩
      have hk' : k < n := by rw [← h.nodes]; exact hk
      obtain ⟨cache', m', f', b', e, q1, q2, q3, q4⟩ := customizeNode_spec h hwl hk' g1 g2 hm hc
      exact ⟨(cache', m'), e, q1, q2, f', b', q3, q4⟩)
  have hc3 : CusInv c.upTail c.upHead (listArcs rt rh w) (fun _ => True) f2 b2 := hc2.mono (by
    intro T bn mn tn hT _ mn' hmn'
    have := (h.graph.up.up bn mn' ⟨_, hT.bt, hmn'⟩).2
    show mn' < c.rank.length
    rw [h.nodes]; exact this)
  refine ⟨m2, f2, b2, ?_, hm2, hc3⟩
  unfold Metric.customize
  simp only [e1, e2, verifyAll_spec h.graph hm2 hc3, Option.bind_eq_bind, Option.bind_some]

/-- Fully relaxed weights are determined by the input weights. -/
theorem CusInv.unique {n : Nat} {rt rh : List Nat} {c : Cch} {U : List Bool} (h : CchOk n rt rh c U) {w : List Nat}
    (hwl : w.length = rt.length) {f b f' b' : Nat → Nat} (h1 : CusInv c.upTail c.upHead (listArcs rt rh w) (fun _ => True) f b)
    (h2 : CusInv c.upTail c.upHead (listArcs rt rh w) (fun _ => True) f' b') {a : Nat} (ha : a < c.upTail.length) :
    f a = f' a ∧ b a = b' a := by
  have hlen := h.graph.up.sorted.1
  obtain ⟨x, hx⟩ := rd_isSome (v := c.upTail) ha
  obtain ⟨y, hy⟩ := rd_isSome (v := c.upHead) (i := a) (by omega)
  have m1 := h1.isMin h hwl hx hy
  have m2 := h2.isMin h hwl hx hy
  exact ⟨isInnerMin_unique m1.1 m2.1, isInnerMin_unique m1.2 m2.2⟩

end RK
