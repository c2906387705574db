import Verif.Props.ChQuery
import Verif.Props.ChFile
import Verif.Proof.ChCheck
import Verif.Proof.PermuteNodes
/-! Helper lemmas: built hierarchies are valid, can be stored, and can be queried after loading. -/
namespace RK
open Spec RK.Props

/-- What the construction functions guarantee beyond `ChOk`. -/
structure ChFull (n : Nat) (tail head weight : List Nat) (ch : Ch) (OF OB : List Bool) : Prop where
  ok : ChOk n (listArcs tail head weight) ch
  forward : Unpackable ch.forward OF
  backward : Unpackable ch.backward OB

theorem builtFor_full {ch : Ch} {G : QGraph} (h : BuiltFor ch G) :
    ∃ tail head weight OF OB, GraphInput G tail head weight ∧ ChFull G.n tail head weight ch OF OB ∧
      (∀ w ∈ ch.forward.weight, w ≤ lightArc) ∧ ∀ w ∈ ch.backward.weight, w ≤ lightArc := by
  obtain ⟨tail, head, weight, hi, asserts, maxPop, jf, jb, hb, l1, l2⟩ := h
  have hn : G.n ≤ MinIDQueue.maxIds := hi.nodes
  have hsz : tail.length ≤ invalidId := by
    have := hi.size
    rw [invalidId_val]; omega
  have hL : ch.Light lightArc := ⟨l1, l2⟩
  have key : ChOk G.n (listArcs tail head weight) ch ∧ (∃ B, Unpackable ch.forward B) ∧ ∃ B, Unpackable ch.backward B := by
    rcases hb with hb | ⟨rank, hp, hl, hb⟩ | ⟨order, hp, hl, hb⟩
    · exact build_ok' hn hi.head_len hi.weight_len hi.tail_lt hi.head_lt hsz hi.weight_le (by decide) hb hL
    · have r := buildGivenRank_ok' hn (isPerm_iff_perm.2 hp) hl hi.head_len hi.weight_len hi.tail_lt hi.head_lt hsz hi.weight_le (by decide) hb hL
      exact ⟨r.1, r.2.2⟩
    · obtain ⟨rank, e, h1, h2, _⟩ := invertPermutation_spec (isPerm_iff_perm.2 hp)
      unfold Ch.buildGivenOrder at hb
      rw [e] at hb
      have r := buildGivenRank_ok' hn h2 (h1.trans hl) hi.head_len hi.weight_len hi.tail_lt hi.head_lt hsz hi.weight_le (by decide) hb hL
      exact ⟨r.1, r.2.2⟩
  obtain ⟨h1, ⟨OF, h2⟩, ⟨OB, h3⟩⟩ := key
  exact ⟨tail, head, weight, OF, OB, hi, ⟨h1, h2, h3⟩, l1, l2⟩

/-- Every arc of a direction has an owner. -/
theorem SideOk.arc {n : Nat} {s : ChSide} (h : SideOk n s) {a : Nat} (ha : a < s.head.length) : ∃ x y w, s.Arc a x y w := by
  have hlast : rd s.firstOut (s.firstOut.length - 1) = some s.head.length := by
    rw [show s.firstOut.length - 1 = n by have := h.csr.length; omega]; exact h.csr.last
  obtain ⟨x, b, e, hx, hb, he, h1, h2⟩ := exists_range h.csr.first hlast ha
  obtain ⟨y, hy⟩ := rd_isSome ha
  obtain ⟨w, hw⟩ := rd_isSome (v := s.weight) (i := a) (by rw [h.weight]; exact ha)
  exact ⟨x, y, w, ⟨b, e, hb, he, h1, h2⟩, hy, hw⟩

theorem SideOk.arc_lt {n : Nat} {s : ChSide} {a x y w : Nat} (h : s.Arc a x y w) : a < s.head.length :=
  (List.getElem?_eq_some_iff.1 h.2.1).1

/-- Arcs of earlier nodes have smaller ids. -/
theorem outArc_lt {n : Nat} {fo head : List Nat} (h : IsCSR n fo head) {x y a b : Nat} (hx : OutArc fo x a) (hy : OutArc fo y b)
    (hxy : x < y) : a < b := by
  obtain ⟨_, hmono, _, _⟩ := (csr_iff h.length).1 h
  obtain ⟨b1, e1, _, he1, _, h2⟩ := hx
  obtain ⟨b2, e2, hb2, _, h3, _⟩ := hy
  have : e1 ≤ b2 := by
    have l1 := (List.getElem?_eq_some_iff.1 he1)
    have l2 := (List.getElem?_eq_some_iff.1 hb2)
    obtain ⟨l1, e1⟩ := l1
    obtain ⟨l2, e2⟩ := l2
    rcases Nat.lt_or_eq_of_le (show x + 1 ≤ y by omega) with hlt | heq
    · have := List.pairwise_iff_getElem.1 hmono (x + 1) y l1 l2 hlt
      omega
    · subst heq; omega
  omega

theorem unpackable_at {s : ChSide} {B : List Bool} (h : Unpackable s B) {a : Nat} {o : Bool} {i j : Nat}
    (hu : UnpackAt s.first s.second s.isOriginal a o i j) (ha : a < s.head.length) : B[a]? = some o := by
  have hl := h.2.1
  have hb := holdsBits_of_rep h.1
  obtain ⟨b, hb'⟩ : ∃ b, B[a]? = some b := ⟨B[a]'(by omega), List.getElem?_eq_getElem _⟩
  have := hb.2 a b hb'
  rw [hu.bit] at this
  injection this with this
  rw [hb', this]

theorem order_lt {n : Nat} {In : ArcRel} {ch : Ch} (h : ChOk n In ch) {p x : Nat} (hp : rd ch.order p = some x) : x < n := by
  have hpl := rd_some_lt hp
  have := (h.inv p x (by have := h.orderLen; omega)).2 hp
  have := rd_some_lt this
  have := h.rankLen
  omega

/-- Entries of the unpacking vectors. -/
theorem expands_lt {n : Nat} {tail head weight : List Nat} {ch : Ch} (h : ChOk n (listArcs tail head weight) ch)
    {o : Bool} {i j p q w : Nat} (he : Expands (listArcs tail head weight) ch.order ch.forward.Arc ch.backward.Arc o i j p q w) :
    (o = true → i < tail.length ∧ j < n) ∧ (o = false → i < ch.backward.head.length ∧ j < ch.forward.head.length) := by
  rcases he with ⟨rfl, x, y, h1, h2, h3, rfl⟩ | ⟨rfl, z, w1, w2, h1, h2, _⟩
  · refine ⟨fun _ => ⟨(List.getElem?_eq_some_iff.1 h3.1).1, order_lt h h2⟩, fun h => (by cases h)⟩
  · exact ⟨fun h => (by cases h), fun _ => ⟨(List.getElem?_eq_some_iff.1 h1.2.1).1, (List.getElem?_eq_some_iff.1 h2.2.1).1⟩⟩

theorem areInverse_of_chOk {n : Nat} {In : ArcRel} {ch : Ch} (h : ChOk n In ch) : AreInverse ch.rank ch.order := by
  refine ⟨by rw [h.rankLen, h.orderLen], ?_⟩
  intro x i
  constructor
  · intro hx
    have := h.rankPerm.lt i (List.mem_of_getElem? hx)
    rw [h.rankLen] at this
    exact (h.inv i x this).1 hx
  · intro hi
    have := rd_some_lt (v := ch.order) hi
    rw [h.orderLen] at this
    exact (h.inv i x this).2 hi

theorem storableSide {n : Nat} {s : ChSide} {B : List Bool} (hs : SideOk n s) (hu : Unpackable s B) (hn : n < 2 ^ 32)
    (hw : ∀ w ∈ s.weight, w < 2 ^ 32) (hi : ∀ a, a < s.head.length → ∃ i j, rd s.first a = some i ∧ rd s.second a = some j ∧ i < 2 ^ 32 ∧ j < 2 ^ 32) :
    StorableSide n s B := by
  have hsz : s.head.length < 2 ^ 32 := by have := hs.size; rw [invalidId_val] at this; omega
  obtain ⟨_, hmono, hgl, hhn⟩ := (csr_iff hs.csr.length).1 hs.csr
  refine ⟨hs.csr.length, hs.weight, hu.2.2.1, hu.2.2.2, hu.1, hu.2.1, hsz, ?_⟩
  intro v hv x hx
  simp only [List.mem_cons, List.not_mem_nil, or_false] at hv
  rcases hv with rfl | rfl | rfl | rfl | rfl
  · obtain ⟨i, hil, rfl⟩ := List.getElem_of_mem hx
    have : s.firstOut[i] ≤ s.head.length := by
      have hl := hs.csr.length
      obtain ⟨hn', e⟩ := List.getElem?_eq_some_iff.1 hs.csr.last
      rcases Nat.lt_or_eq_of_le (show i ≤ n by omega) with hlt | rfl
      · have := List.pairwise_iff_getElem.1 hmono i n hil hn' hlt
        omega
      · omega
    omega
  · have := hhn x hx; omega
  · exact hw x hx
  · obtain ⟨a, ha, rfl⟩ := List.getElem_of_mem hx
    obtain ⟨i, j, h1, h2, h3, h4⟩ := hi a (by have := hu.2.2.1; omega)
    rw [rd_lt ha] at h1
    have := Option.some.inj h1
    omega
  · obtain ⟨a, ha, rfl⟩ := List.getElem_of_mem hx
    obtain ⟨i, j, h1, h2, h3, h4⟩ := hi a (by have := hu.2.2.2; omega)
    rw [rd_lt ha] at h2
    have := Option.some.inj h2
    omega

theorem ChFull.storable {n : Nat} {tail head weight : List Nat} {ch : Ch} {OF OB : List Bool} (h : ChFull n tail head weight ch OF OB)
    (hn : n ≤ 2 ^ 30) (ht : tail.length < 2 ^ 32) (l1 : ∀ w ∈ ch.forward.weight, w ≤ lightArc) (l2 : ∀ w ∈ ch.backward.weight, w ≤ lightArc) :
    Storable ch OF OB := by
  have hok := h.ok
  have hsF := hok.fwd.size
  have hsB := hok.bwd.size
  rw [invalidId_val] at hsF hsB
  have bound : ∀ (o : Bool) (i j p q w : Nat), Expands (listArcs tail head weight) ch.order ch.forward.Arc ch.backward.Arc o i j p q w →
      i < 2 ^ 32 ∧ j < 2 ^ 32 := by
    intro o i j p q w he
    have := expands_lt hok he
    cases o with
    | true => have := this.1 rfl; omega
    | false => have := this.2 rfl; omega
  refine ⟨by rw [hok.rankLen]; omega, isPerm_iff_perm.1 hok.rankPerm, areInverse_of_chOk hok, ?_, ?_⟩
  · rw [hok.rankLen]
    refine storableSide hok.fwd h.forward (by omega) (fun w hw => by have := l1 w hw; unfold lightArc at this; omega) ?_
    intro a ha
    obtain ⟨x, y, w, harc⟩ := hok.fwd.arc ha
    obtain ⟨o, i, j, hu, he⟩ := hok.exF a x y w harc
    exact ⟨i, j, hu.first, hu.second, bound _ _ _ _ _ _ he⟩
  · rw [hok.rankLen]
    refine storableSide hok.bwd h.backward (by omega) (fun w hw => by have := l2 w hw; unfold lightArc at this; omega) ?_
    intro a ha
    obtain ⟨x, y, w, harc⟩ := hok.bwd.arc ha
    obtain ⟨o, i, j, hu, he⟩ := hok.exB a x y w harc
    exact ⟨i, j, hu.first, hu.second, bound _ _ _ _ _ _ he⟩

theorem ChFull.valid {n : Nat} {tail head weight : List Nat} {ch : Ch} {OF OB : List Bool} (h : ChFull n tail head weight ch OF OB)
    (ht : tail.length < 2 ^ 32) (l1 : ∀ w ∈ ch.forward.weight, w ≤ lightArc) (l2 : ∀ w ∈ ch.backward.weight, w ≤ lightArc) :
    ValidHierarchy ch.rank ch.order (ch.forward.contents OF) (ch.backward.contents OB) := by
  have hok := h.ok
  have atF : ∀ a o, OF[a]? = some o → ∃ x y w i j, ch.forward.Arc a x y w ∧ rd ch.forward.first a = some i ∧ rd ch.forward.second a = some j ∧
      Expands (listArcs tail head weight) ch.order ch.forward.Arc ch.backward.Arc o i j x y w := by
    intro a o hb
    have ha : a < ch.forward.head.length := by rw [← h.forward.2.1]; exact (List.getElem?_eq_some_iff.1 hb).1
    obtain ⟨x, y, w, harc⟩ := hok.fwd.arc ha
    obtain ⟨o', i, j, hu, he⟩ := hok.exF a x y w harc
    have := unpackable_at h.forward hu ha
    rw [hb] at this
    injection this with this
    subst this
    exact ⟨x, y, w, i, j, harc, hu.first, hu.second, he⟩
  have atB : ∀ a o, OB[a]? = some o → ∃ x y w i j, ch.backward.Arc a x y w ∧ rd ch.backward.first a = some i ∧ rd ch.backward.second a = some j ∧
      Expands (listArcs tail head weight) ch.order ch.forward.Arc ch.backward.Arc o i j y x w := by
    intro a o hb
    have ha : a < ch.backward.head.length := by rw [← h.backward.2.1]; exact (List.getElem?_eq_some_iff.1 hb).1
    obtain ⟨x, y, w, harc⟩ := hok.bwd.arc ha
    obtain ⟨o', i, j, hu, he⟩ := hok.exB a x y w harc
    have := unpackable_at h.backward hu ha
    rw [hb] at this
    injection this with this
    subst this
    exact ⟨x, y, w, i, j, harc, hu.first, hu.second, he⟩
  have orig : ∀ i j p q w, Expands (listArcs tail head weight) ch.order ch.forward.Arc ch.backward.Arc true i j p q w →
      i ≠ 4294967295 ∧ j < n := by
    intro i j p q w he
    have := (expands_lt hok he).1 rfl
    omega
  have wsum : ∀ {w1 w2 i j x y z : Nat}, ch.backward.Arc i z x w1 → ch.forward.Arc j z y w2 → w1 + w2 = (w1 + w2) % 2 ^ 32 := by
    intro w1 w2 i j x y z h1 h2
    have a := l2 w1 (List.mem_of_getElem? h1.2.2)
    have b := l1 w2 (List.mem_of_getElem? h2.2.2)
    unfold lightArc at a b
    omega
  refine ⟨?_, ⟨by rw [hok.rankLen]; exact hok.fwd.csr, hok.fwd.weight, h.forward.2.2.1, h.forward.2.2.2, h.forward.2.1, ?_⟩,
    ⟨by rw [hok.rankLen]; exact hok.bwd.csr, hok.bwd.weight, h.backward.2.2.1, h.backward.2.2.2, h.backward.2.1, ?_⟩, ?_, ?_, ?_, ?_⟩
  · exact areInverse_symm (areInverse_of_chOk hok)
  · intro a x y hx hy
    obtain ⟨w, hw⟩ := rd_isSome (v := ch.forward.weight) (i := a) (by rw [hok.fwd.weight]; exact (List.getElem?_eq_some_iff.1 hy).1)
    exact (hok.hier.fUp x y w ⟨a, hx, hy, hw⟩).2.2
  · intro a x y hx hy
    obtain ⟨w, hw⟩ := rd_isSome (v := ch.backward.weight) (i := a) (by rw [hok.bwd.weight]; exact (List.getElem?_eq_some_iff.1 hy).1)
    exact (hok.hier.bUp x y w ⟨a, hx, hy, hw⟩).2.2
  · intro a hb i j hi hj
    obtain ⟨x, y, w, i', j', _, h1, h2, he⟩ := atF a true hb
    obtain rfl := Option.some.inj (hi.symm.trans h1)
    obtain rfl := Option.some.inj (hj.symm.trans h2)
    rw [hok.rankLen]
    exact orig _ _ _ _ _ he
  · intro a hb i j hi hj
    obtain ⟨x, y, w, i', j', _, h1, h2, he⟩ := atB a true hb
    obtain rfl := Option.some.inj (hi.symm.trans h1)
    obtain rfl := Option.some.inj (hj.symm.trans h2)
    rw [hok.rankLen]
    exact orig _ _ _ _ _ he
  · intro a hb
    obtain ⟨x, y, w, i, j, harc, h1, h2, he⟩ := atF a false hb
    rcases he with ⟨hc, _⟩ | ⟨_, z, w1, w2, g1, g2, rfl⟩
    · cases hc
    · have hz := (hok.hier.bUp z x w1 ⟨i, g1⟩).2.2
      exact ⟨i, j, _, w1, w2, h1, h2, outArc_lt hok.fwd.csr g2.1 harc.1 hz, harc.2.2, g1.2.2, g2.2.2, wsum g1 g2⟩
  · intro a hb
    obtain ⟨x, y, w, i, j, harc, h1, h2, he⟩ := atB a false hb
    rcases he with ⟨hc, _⟩ | ⟨_, z, w1, w2, g1, g2, rfl⟩
    · cases hc
    · have hz := (hok.hier.fUp z x w2 ⟨j, g2⟩).2.2
      exact ⟨i, j, _, w1, w2, h1, h2, outArc_lt hok.bwd.csr g1.1 harc.1 hz, harc.2.2, g1.2.2, g2.2.2, wsum g1 g2⟩

theorem builtFor_check {ch : Ch} {G : QGraph} (h : BuiltFor ch G) : checkCh ch = some true := by
  obtain ⟨tail, head, weight, OF, OB, hi, hf, l1, l2⟩ := builtFor_full h
  have hv := hf.valid hi.size l1 l2
  have hp : IsPerm ch.order := by
    refine isPerm_iff_perm.2 ?_
    obtain ⟨q, _, q1, q2⟩ := invert_areInverse (isPerm_iff_perm.1 hf.ok.rankPerm)
    have : q = ch.order := by
      have hi' := areInverse_of_chOk hf.ok
      apply list_ext_rd (by rw [← q2.1, ← hi'.1])
      intro i hil
      obtain ⟨x, hx⟩ := rd_isSome (v := q) hil
      rw [hx]
      exact ((hi'.2 x i).1 ((q2.2 x i).2 hx)).symm
    exact this ▸ q1
  obtain ⟨r, e, hr⟩ := checkCh_spec hp (by rw [hf.ok.rankLen, invalidId_val]; have := hi.nodes; omega)
    (holdsBits_of_rep hf.forward.1) (holdsBits_of_rep hf.backward.1)
  rw [e, hr.2 hv]

/-- A hierarchy with the same contents serves queries just as well. -/
theorem chOk_same {n : Nat} {In : ArcRel} {ch ch' : Ch} {OF OB : List Bool} (h : ChOk n In ch) (hF : Unpackable ch.forward OF)
    (hB : Unpackable ch.backward OB) (hs : SameHierarchy ch ch' OF OB) : ChOk n In ch' := by
  obtain ⟨rank, order, f, b⟩ := ch
  obtain ⟨rank', order', f', b'⟩ := ch'
  obtain ⟨h1, h2, ⟨f1, f2, f3, f4, f5, f6⟩, ⟨b1, b2, b3, b4, b5, b6⟩⟩ := hs
  simp only at h1 h2 f1 f2 f3 f4 f5 f6 b1 b2 b3 b4 b5 b6
  obtain ⟨ffo, fhd, fw, ff, fs, fb⟩ := f
  obtain ⟨bfo, bhd, bw, bf, bs, bb⟩ := b
  obtain ⟨ffo', fhd', fw', ff', fs', fb'⟩ := f'
  obtain ⟨bfo', bhd', bw', bf', bs', bb'⟩ := b'
  simp only at f1 f2 f3 f4 f5 b1 b2 b3 b4 b5
  subst h1 h2 f1 f2 f3 f4 f5 b1 b2 b3 b4 b5
  refine ⟨h.rankLen, h.orderLen, h.rankPerm, h.inv, ⟨h.fwd.csr, h.fwd.weight, h.fwd.size, h.fwd.strict⟩, ⟨h.bwd.csr, h.bwd.weight, h.bwd.size, h.bwd.strict⟩,
    h.hier, ?_, ?_, h.dom⟩
  · intro a x y w ha
    obtain ⟨o, i, j, hu, he⟩ := h.exF a x y w ha
    have hb := unpackable_at hF hu (SideOk.arc_lt (n := n) ha)
    exact ⟨o, i, j, ⟨(holdsBits_of_rep f6).2 a o hb, hu.first, hu.second⟩, he⟩
  · intro a x y w ha
    obtain ⟨o, i, j, hu, he⟩ := h.exB a x y w ha
    have hb := unpackable_at hB hu (SideOk.arc_lt (n := n) ha)
    exact ⟨o, i, j, ⟨(holdsBits_of_rep b6).2 a o hb, hu.first, hu.second⟩, he⟩

theorem hierOk_loaded {ch ch' : Ch} {G : QGraph} {OF OB : List Bool} (h : BuiltFor ch G) (hF : Unpackable ch.forward OF)
    (hB : Unpackable ch.backward OB) (hs : SameHierarchy ch ch' OF OB) : HierOk ch' G := by
  have h0 := h.hierOk
  have hok := chOk_same h0.ok hF hB hs
  obtain ⟨_, _, ⟨f1, f2, f3, _⟩, ⟨b1, b2, b3, _⟩⟩ := hs
  obtain ⟨_, _, _, _, _, _, _, _, _, l1, l2⟩ := h
  rw [← f3] at l1
  rw [← b3] at l2
  refine ⟨hok, ⟨⟨hok.fwd, ?_, ?_⟩, ⟨hok.bwd, ?_, ?_⟩, h0.q.n_le⟩, h0.n_le⟩
  · rintro x y w ⟨a, ha⟩; exact hok.arcF ha
  · rintro x y w ⟨a, ha⟩
    have := l1 w (List.mem_of_getElem? ha.2.2)
    rw [infWeight_val]; unfold lightArc at this; omega
  · rintro x y w ⟨a, ha⟩; exact hok.arcB ha
  · rintro x y w ⟨a, ha⟩
    have := l2 w (List.mem_of_getElem? ha.2.2)
    rw [infWeight_val]; unfold lightArc at this; omega

end RK
