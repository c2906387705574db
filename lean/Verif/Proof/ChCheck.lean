import Verif.Model.ChCheck
import Verif.Spec.Hierarchy
import Verif.Proof.ChSearch
import Verif.Proof.CchUp
/-! Helper lemmas: checking a hierarchy. -/
namespace RK
open Spec

/-- The check runs to completion and returns whether `Q` holds. -/
def Decides (o : Option Bool) (Q : Prop) : Prop := ∃ r, o = some r ∧ (r = true ↔ Q)

theorem Decides.iff {o : Option Bool} {P Q : Prop} (h : Decides o P) (e : P ↔ Q) : Decides o Q := by
  obtain ⟨r, h1, h2⟩ := h
  exact ⟨r, h1, h2.trans e⟩

theorem Decides.some (b : Bool) : Decides (some b) (b = true) := ⟨b, rfl, Iff.rfl⟩

theorem Decides.andThen {b : Bool} {o : Option Bool} {P Q : Prop} (hb : b = true ↔ P) (h : P → Decides o Q) :
    Decides (andThen b o) (P ∧ Q) := by
  unfold RK.andThen
  cases b with
  | true =>
    have hP := hb.1 rfl
    obtain ⟨r, h1, h2⟩ := h hP
    exact ⟨r, by simpa using h1, by rw [h2]; simp [hP]⟩
  | false =>
    refine ⟨false, by simp, ?_⟩
    have : ¬ P := fun h => by simpa using hb.2 h
    simp [this]

theorem Decides.bind {o : Option Bool} {f : Bool → Option Bool} {P Q : Prop} (h : Decides o P)
    (hf : ∀ r, (r = true ↔ P) → Decides (f r) Q) : Decides (o.bind f) Q := by
  obtain ⟨r, h1, h2⟩ := h
  rw [h1]
  exact hf r h2

theorem checkLoop_spec {f : Nat → Option Bool} {P : Nat → Prop} : ∀ (k a : Nat), (∀ i, a ≤ i → i < a + k → Decides (f i) (P i)) →
    Decides (checkLoop f k a) (∀ i, a ≤ i → i < a + k → P i)
  | 0, a, _ => ⟨true, rfl, by simp; omega⟩
  | k + 1, a, h => by
    unfold checkLoop
    refine ((h a (Nat.le_refl _) (by omega)).bind (fun r hr =>
      Decides.andThen hr (fun _ => checkLoop_spec k (a + 1) (fun i h1 h2 => h i (by omega) (by omega))))).iff ?_
    constructor
    · rintro ⟨h1, h2⟩ i i1 i2
      rcases Nat.eq_or_lt_of_le i1 with e | e
      · rw [← e]; exact h1
      · exact h2 i (by omega) (by omega)
    · exact fun g => ⟨g a (Nat.le_refl _) (by omega), fun i i1 i2 => g i (by omega) (by omega)⟩

theorem checkUpArcs_spec {head : List Nat} {x : Nat} : ∀ (k a : Nat), a + k ≤ head.length →
    Decides (checkUpArcs head x k a) (∀ i y : Nat, a ≤ i → i < a + k → head[i]? = some y → x < y)
  | 0, a, _ => ⟨true, rfl, by simp; omega⟩
  | k + 1, a, h => by
    unfold checkUpArcs
    obtain ⟨y, hy⟩ := rd_isSome (v := head) (i := a) (by omega)
    rw [hy]
    have ih := checkUpArcs_spec (head := head) (x := x) k (a + 1) (by omega)
    refine (Decides.andThen (b := !decide (y ≤ x)) (P := x < y) (by simp) (fun _ => ih)).iff ?_
    constructor
    · rintro ⟨h1, h2⟩ i z i1 i2 hz
      rcases Nat.eq_or_lt_of_le i1 with e | e
      · subst e
        have := rd_congr_some hz hy
        omega
      · exact h2 i z (by omega) (by omega) hz
    · exact fun g => ⟨g a y (Nat.le_refl _) (by omega) hy, fun i z i1 i2 hz => g i z (by omega) (by omega) hz⟩

theorem checkUpNode_spec {n : Nat} {s : ChSide} (hg : IsCSR n s.firstOut s.head) {x : Nat} (hx : x < n) :
    Decides (checkUpNode s x) (∀ a y : Nat, OutArc s.firstOut x a → s.head[a]? = some y → x < y) := by
  obtain ⟨b, e, hb, he, hbe, hel⟩ := hg.range hx
  unfold checkUpNode
  have h1 : rd s.firstOut x = some b := hb
  have h2 : rd s.firstOut (x + 1) = some e := he
  simp only [h1, h2, Option.bind_eq_bind, Option.bind_some]
  refine (checkUpArcs_spec (e - b) b (by omega)).iff ?_
  constructor
  · rintro h a y ⟨b', e', q1, q2, q3, q4⟩ hy
    have := rd_congr_some q1 hb
    have := rd_congr_some q2 he
    exact h a y (by omega) (by omega) hy
  · exact fun h a y i1 i2 hy => h a y ⟨b, e, hb, he, i1, by omega⟩ hy

/-- The contents of the vectors of one direction. -/
def ChSide.contents (s : ChSide) (O : List Bool) : HierarchySide := ⟨s.firstOut, s.head, s.weight, s.first, s.second, O⟩

/-- What a caller sees of a bit vector. -/
def HoldsBits (v : BitVector) (O : List Bool) : Prop := v.size = O.length ∧ ∀ (i : Nat) (b : Bool), O[i]? = some b → v.isSet i = some b

/-- The format of one direction without the direction of the arcs. -/
def FlatSide (n : Nat) (s : ChSide) (O : List Bool) : Prop :=
  IsCSR n s.firstOut s.head ∧ s.weight.length = s.head.length ∧ s.first.length = s.head.length ∧
    s.second.length = s.head.length ∧ O.length = s.head.length

theorem csr_iff {n : Nat} {fo head : List Nat} (hl : fo.length = n + 1) : IsCSR n fo head ↔
    fo.head? = some 0 ∧ fo.Pairwise (· ≤ ·) ∧ fo.getLast? = some head.length ∧ ∀ y ∈ head, y < n := by
  have hlast : fo.getLast? = fo[n]? := by rw [List.getLast?_eq_getElem?, hl]; rfl
  have hhead : fo.head? = fo[0]? := List.head?_eq_getElem?
  rw [hlast, hhead]
  constructor
  · intro h
    refine ⟨h.first, ?_, h.last, ?_⟩
    · rw [List.pairwise_iff_getElem]
      have key : ∀ (k i b e : Nat), fo[i]? = some b → fo[i + k]? = some e → b ≤ e := by
        intro k
        induction k with
        | zero => intro i b e h1 h2; exact Nat.le_of_eq (rd_congr_some h1 h2)
        | succ k ih =>
          intro i b e h1 h2
          obtain ⟨d, hd⟩ := rd_isSome (v := fo) (i := i + k) (by have := rd_some_lt (v := fo) h2; omega)
          have g1 := ih i b d h1 hd
          have g2 := h.mono (i + k) d e hd h2
          omega
      intro i j hi hj hij
      exact key (j - i) i _ _ (List.getElem?_eq_getElem hi) (by rw [show i + (j - i) = j by omega]; exact List.getElem?_eq_getElem hj)
    · intro y hy
      obtain ⟨a, ha⟩ := mem_iff_rd.1 hy
      exact h.head_lt a y ha
  · rintro ⟨h1, h2, h3, h4⟩
    refine ⟨hl, ?_, h1, h3, fun a y hy => h4 y (List.mem_of_getElem? hy)⟩
    intro x b e hb he
    rw [List.pairwise_iff_getElem] at h2
    have i1 := rd_some_lt (v := fo) he
    have := h2 x (x + 1) (by omega) (by omega) (by omega)
    rw [List.getElem?_eq_getElem (by omega)] at hb he
    injection hb with hb
    injection he with he
    omega

theorem checkSide_spec {n : Nat} {s : ChSide} {O : List Bool} {next : Option Bool} {Q : Prop} (hb : HoldsBits s.isOriginal O)
    (hl : s.firstOut.length = n + 1) (h : FlatSide n s O → Decides next Q) :
    Decides (checkSide n s next) (FlatSide n s O ∧ Q) := by
  obtain ⟨z, hz⟩ : ∃ z, s.firstOut.head? = some z := by
    rw [List.head?_eq_getElem?]; exact rd_isSome (v := s.firstOut) (by omega)
  obtain ⟨m, hm⟩ : ∃ m, s.firstOut.getLast? = some m := by
    rw [List.getLast?_eq_getElem?]; exact rd_isSome (v := s.firstOut) (by omega)
  unfold checkSide
  simp only [hz, hm, Option.bind_eq_bind, Option.bind_some]
  have hall : (s.head.all fun y => decide (y < n)) = true ↔ ∀ y ∈ s.head, y < n := by simp
  have flat : z = 0 → s.firstOut.Pairwise (· ≤ ·) → s.head.length = m → s.weight.length = m → s.first.length = m → s.second.length = m →
      s.isOriginal.size = m → (∀ y ∈ s.head, y < n) → FlatSide n s O := by
    intro h1 h2 h3 h4 h5 h6 h7 h8
    refine ⟨(csr_iff hl).2 ⟨by rw [hz, h1], h2, by rw [hm, h3], h8⟩, by omega, by omega, by omega, ?_⟩
    have := hb.1; omega
  refine (Decides.andThen (P := z = 0) (by simp) fun h1 => Decides.andThen (isSortedUsingLess_iff _) fun h2 =>
    Decides.andThen (P := s.head.length = m) (by simp) fun h3 => Decides.andThen (P := s.weight.length = m) (by simp) fun h4 =>
    Decides.andThen (P := s.first.length = m) (by simp) fun h5 => Decides.andThen (P := s.second.length = m) (by simp) fun h6 =>
    Decides.andThen (P := s.isOriginal.size = m) (by simp) fun h7 => Decides.andThen hall fun h8 =>
    h (flat h1 h2 h3 h4 h5 h6 h7 h8)).iff ?_
  constructor
  · rintro ⟨h1, h2, h3, h4, h5, h6, h7, h8, h9⟩
    exact ⟨flat h1 h2 h3 h4 h5 h6 h7 h8, h9⟩
  · rintro ⟨⟨g1, g2, g3, g4, g5⟩, h9⟩
    obtain ⟨q1, q2, q3, q4⟩ := (csr_iff hl).1 g1
    rw [hz] at q1
    rw [hm] at q3
    injection q1 with q1
    injection q3 with q3
    have := hb.1
    exact ⟨q1, q2, q3.symm, by omega, by omega, by omega, by omega, q4, h9⟩

theorem checkUnpack_spec {n : Nat} {F B : ChSide} {OF OB : List Bool} (hF : FlatSide n F OF) (hB : FlatSide n B OB)
    (bF : HoldsBits F.isOriginal OF) (bB : HoldsBits B.isOriginal OB) (isF : Bool) {a : Nat}
    (ha : a < (if isF then F else B).head.length) :
    Decides (checkUnpack n F B isF a)
      (((if isF then OF else OB)[a]? = some true → OriginalArcOk n ((if isF then F else B).contents (if isF then OF else OB)) a) ∧
       ((if isF then OF else OB)[a]? = some false → ShortcutOk (F.contents OF) (B.contents OB)
          ((if isF then F else B).contents (if isF then OF else OB)) (fun a i j => (if isF then j else i) < a) a)) := by
  have hinv : invalidId = 4294967295 := rfl
  generalize hs : (if isF then F else B) = s at *
  generalize hO : (if isF then OF else OB) = O at *
  have fl : FlatSide n s O := by subst hs hO; cases isF <;> assumption
  have hb : HoldsBits s.isOriginal O := by subst hs hO; cases isF <;> assumption
  obtain ⟨_, l1, l2, l3, l4⟩ := fl
  have wF := hF.2.1
  have wB := hB.2.1
  obtain ⟨i, hi⟩ := rd_isSome (v := s.first) (i := a) (by omega)
  obtain ⟨j, hj⟩ := rd_isSome (v := s.second) (i := a) (by omega)
  obtain ⟨w, hw⟩ := rd_isSome (v := s.weight) (i := a) (by omega)
  obtain ⟨o, ho⟩ := rd_isSome (v := O) (i := a) (by omega)
  have ho' : O[a]? = some o := ho
  have hset := hb.2 a o ho
  unfold checkUnpack
  simp only [hs, hset, hi, hj, hw, Option.bind_eq_bind, Option.bind_some, ho']
  cases o with
  | false =>
    simp only [Bool.not_false, if_true, Option.some.injEq, Bool.false_eq_true, false_implies, true_and, true_implies]
    refine (Decides.andThen (P := i < B.head.length) (by simp) fun h1 => Decides.andThen (P := j < F.head.length) (by simp) fun h2 =>
      Decides.andThen (P := (if isF then j else i) < a) (by simp) fun h3 =>
        (show Decides _ (∃ w1 w2, B.weight[i]? = some w1 ∧ F.weight[j]? = some w2 ∧ w = (w1 + w2) % 2 ^ 32) from ?_)).iff ?_
    · obtain ⟨w1, hw1⟩ := rd_isSome (v := B.weight) (i := i) (by omega)
      obtain ⟨w2, hw2⟩ := rd_isSome (v := F.weight) (i := j) (by omega)
      simp only [hw1, hw2, Option.bind_some]
      refine (Decides.some _).iff ?_
      simp only [decide_eq_true_eq]
      have e : add32 w1 w2 = (w1 + w2) % 2 ^ 32 := rfl
      rw [e]
      constructor
      · exact fun h => ⟨w1, w2, hw1, hw2, h⟩
      · rintro ⟨v1, v2, q1, q2, q3⟩
        rw [rd_congr_some q1 hw1, rd_congr_some q2 hw2] at q3
        exact q3
    · constructor
      · rintro ⟨h1, h2, h3, w1, w2, h4, h5, h6⟩
        exact ⟨i, j, w, w1, w2, hi, hj, h3, hw, h4, h5, h6⟩
      · rintro ⟨i', j', w', w1, w2, g1, g2, g3, g4, g5, g6, g7⟩
        cases (rd_congr_some g1 hi : i' = i)
        cases (rd_congr_some g2 hj : j' = j)
        cases (rd_congr_some g4 hw : w' = w)
        have := rd_some_lt (v := B.weight) g5
        have := rd_some_lt (v := F.weight) g6
        exact ⟨by omega, by omega, g3, w1, w2, g5, g6, g7⟩
  | true =>
    simp only [Bool.not_true, Bool.false_eq_true, if_false, Option.some.injEq, Bool.true_eq_false, false_implies, and_true, true_implies]
    refine (Decides.andThen (P := i ≠ invalidId) (by simp) fun h1 => Decides.some _).iff ?_
    constructor
    · rintro ⟨h1, h2⟩ i' j' g1 g2
      cases (rd_congr_some g1 hi : i' = i)
      cases (rd_congr_some g2 hj : j' = j)
      exact ⟨by omega, by simpa using h2⟩
    · intro h
      have := h i j hi hj
      exact ⟨by omega, by simpa using this.2⟩

theorem checkArcs_spec {ch : Ch} {OF OB : List Bool} (hF : FlatSide ch.rank.length ch.forward OF) (hB : FlatSide ch.rank.length ch.backward OB)
    (bF : HoldsBits ch.forward.isOriginal OF) (bB : HoldsBits ch.backward.isOriginal OB) :
    Decides (checkArcs ch)
      ((∀ a x y : Nat, OutArc ch.forward.firstOut x a → ch.forward.head[a]? = some y → x < y) ∧
       (∀ a x y : Nat, OutArc ch.backward.firstOut x a → ch.backward.head[a]? = some y → x < y) ∧
       (∀ a : Nat, OF[a]? = some true → OriginalArcOk ch.rank.length (ch.forward.contents OF) a) ∧
       (∀ a : Nat, OB[a]? = some true → OriginalArcOk ch.rank.length (ch.backward.contents OB) a) ∧
       (∀ a : Nat, OF[a]? = some false → ShortcutOk (ch.forward.contents OF) (ch.backward.contents OB) (ch.forward.contents OF) (fun a _ j => j < a) a) ∧
       (∀ a : Nat, OB[a]? = some false → ShortcutOk (ch.forward.contents OF) (ch.backward.contents OB) (ch.backward.contents OB) (fun a i _ => i < a) a)) := by
  unfold checkArcs
  have lF := hF.2.2.2.2
  have lB := hB.2.2.2.2
  have out : ∀ {fo head : List Nat} {x a : Nat}, IsCSR ch.rank.length fo head → OutArc fo x a → x < ch.rank.length := by
    rintro fo head x a hc ⟨b, e, _, he, _⟩
    have := rd_some_lt (v := fo) he
    have := hc.length
    omega
  have c1 := checkLoop_spec ch.rank.length 0 (fun x _ (hx : x < 0 + ch.rank.length) =>
    (checkUpNode_spec hF.1 (x := x) (by omega)).bind fun r hr => Decides.andThen hr fun _ => checkUpNode_spec hB.1 (x := x) (by omega))
  have c2 := checkLoop_spec ch.forward.head.length 0 (fun a _ (ha : a < 0 + ch.forward.head.length) =>
    checkUnpack_spec hF hB bF bB true (a := a) (by simpa using ha))
  have c3 := checkLoop_spec ch.backward.head.length 0 (fun a _ (ha : a < 0 + ch.backward.head.length) =>
    checkUnpack_spec hF hB bF bB false (a := a) (by simpa using ha))
  refine (c1.bind fun r hr => Decides.andThen hr fun _ => c2.bind fun r hr => Decides.andThen hr fun _ => c3).iff ?_
  simp only [if_true, Bool.false_eq_true, if_false, Nat.zero_add, Nat.zero_le, true_implies]
  constructor
  · rintro ⟨h1, h2, h3⟩
    have i1 : ∀ {a : Nat} {b : Bool}, OF[a]? = some b → a < ch.forward.head.length := fun h => by
      have := rd_some_lt (v := OF) h; omega
    have i2 : ∀ {a : Nat} {b : Bool}, OB[a]? = some b → a < ch.backward.head.length := fun h => by
      have := rd_some_lt (v := OB) h; omega
    exact ⟨fun a x y ha hy => (h1 x (out hF.1 ha)).1 a y ha hy, fun a x y ha hy => (h1 x (out hB.1 ha)).2 a y ha hy,
      fun a ha => (h2 a (i1 ha)).1 ha, fun a ha => (h3 a (i2 ha)).1 ha, fun a ha => (h2 a (i1 ha)).2 ha, fun a ha => (h3 a (i2 ha)).2 ha⟩
  · rintro ⟨h1, h2, h3, h4, h5, h6⟩
    exact ⟨fun x _ => ⟨fun a y => h1 a x y, fun a y => h2 a x y⟩, fun a _ => ⟨h3 a, h5 a⟩, fun a _ => ⟨h4 a, h6 a⟩⟩

/-- The check decides whether the hierarchy is well-formed. -/
theorem checkCh_spec {ch : Ch} {OF OB : List Bool} (hp : IsPerm ch.order) (hn : ch.rank.length < invalidId)
    (bF : HoldsBits ch.forward.isOriginal OF) (bB : HoldsBits ch.backward.isOriginal OB) :
    Decides (checkCh ch) (ValidHierarchy ch.rank ch.order (ch.forward.contents OF) (ch.backward.contents OB)) := by
  have hadd : add32 ch.rank.length 1 = ch.rank.length + 1 := by
    rw [invalidId_val] at hn
    unfold add32 u32; omega
  obtain ⟨inv, e, _, h3⟩ := invert_areInverse (isPerm_iff_perm.1 hp)
  unfold checkCh
  simp only [e, Option.bind_eq_bind, Option.bind_some, hadd]
  have hinv : ch.rank = inv ↔ AreInverse ch.order ch.rank := by
    constructor
    · rintro rfl; exact h3
    · intro h
      apply list_ext_rd (by rw [← h.1, h3.1])
      intro i hi
      obtain ⟨x, hx⟩ := rd_isSome (v := ch.rank) hi
      rw [hx]
      exact ((h3.2 x i).1 ((h.2 x i).2 hx)).symm
  refine (Decides.andThen (P := AreInverse ch.order ch.rank) (by simpa using hinv) fun h0 =>
    Decides.andThen (P := ch.forward.firstOut.length = ch.rank.length + 1) (by simp) fun l1 =>
    Decides.andThen (P := ch.backward.firstOut.length = ch.rank.length + 1) (by simp) fun l2 =>
    checkSide_spec bF l1 fun f1 => checkSide_spec bB l2 fun f2 => checkArcs_spec f1 f2 bF bB).iff ?_
  constructor
  · rintro ⟨h0, l1, l2, ⟨a1, a2, a3, a4, a5⟩, ⟨b1, b2, b3, b4, b5⟩, c1, c2, c3, c4, c5, c6⟩
    exact ⟨h0, ⟨a1, a2, a3, a4, a5, c1⟩, ⟨b1, b2, b3, b4, b5, c2⟩, c3, c4, c5, c6⟩
  · rintro ⟨h0, ⟨a1, a2, a3, a4, a5, c1⟩, ⟨b1, b2, b3, b4, b5, c2⟩, c3, c4, c5, c6⟩
    exact ⟨h0, a1.length, b1.length, ⟨a1, a2, a3, a4, a5⟩, ⟨b1, b2, b3, b4, b5⟩, c1, c2, c3, c4, c5, c6⟩

theorem Decides.true_of {o : Option Bool} {Q : Prop} (h : Decides o Q) (hq : Q) : o = Option.some true := by
  obtain ⟨r, h1, h2⟩ := h
  rw [h1, h2.2 hq]

theorem holdsBits_of_rep {v : BitVector} {O : List Bool} (h : v.Rep O) : HoldsBits v O := by
  refine ⟨h.size, fun i b hb => ?_⟩
  have hi := rd_some_lt (v := O) hb
  rw [h.isSet hi]
  unfold BitVector.at'
  rw [List.getD_eq_getElem?_getD, hb]; rfl

end RK
