import Verif.Proof.ChOk
import Verif.Props.ArcReduction
/-! Helper lemmas: the functions that build hierarchies. -/
namespace RK
open Spec WitnessSearch ChGraph

theorem Hier.rename {n : Nat} {σ : Nat → Nat} {F B F' B' : ArcR} (h : Hier n σ F B)
    (hσ : ∀ x, x < n → σ x < n)
    (hF : ∀ p q w, F' p q w ↔ ∃ x y, F x y w ∧ p = σ x ∧ q = σ y)
    (hB : ∀ p q w, B' p q w ↔ ∃ x y, B x y w ∧ p = σ x ∧ q = σ y) : Hier n (fun x => x) F' B' := by
  have hwalk : ∀ r x y l, RWalk (UR σ r F B) x y l → RWalk (UR (fun x => x) r F' B') (σ x) (σ y) l := by
    intro r x y l hw
    induction hw with
    | nil x => exact RWalk.nil _
    | cons ha _ ih =>
      refine RWalk.cons ⟨?_, ha.2⟩ ih
      rcases ha.1 with ha | ha
      · exact Or.inl ((hF _ _ _).2 ⟨_, _, ha, rfl, rfl⟩)
      · exact Or.inr ((hB _ _ _).2 ⟨_, _, ha, rfl, rfl⟩)
  refine ⟨?_, ?_, fun x y _ _ h => h, ?_⟩
  · intro p q w hf'
    obtain ⟨x, y, hf, rfl, rfl⟩ := (hF _ _ _).1 hf'
    obtain ⟨h1, h2, h3⟩ := h.fUp _ _ _ hf
    exact ⟨hσ x h1, hσ y h2, h3⟩
  · intro p q w hf'
    obtain ⟨x, y, hf, rfl, rfl⟩ := (hB _ _ _).1 hf'
    obtain ⟨h1, h2, h3⟩ := h.bUp _ _ _ hf
    exact ⟨hσ x h1, hσ y h2, h3⟩
  · intro z p q w1 w2 hb' hf' hpq
    obtain ⟨z1, x, hb, rfl, rfl⟩ := (hB _ _ _).1 hb'
    obtain ⟨z2, y, hf, he, rfl⟩ := (hF _ _ _).1 hf'
    have := h.inj _ _ (h.bUp _ _ _ hb).1 (h.fUp _ _ _ hf).1 he
    subst this
    obtain ⟨l, hl, hw⟩ := h.tri _ _ _ _ _ hb hf (fun e => hpq (by rw [e]))
    exact ⟨l, hl, hwalk _ _ _ _ hw⟩

/-- Everything known about the rows before they are renamed. -/
structure PreCh (n : Nat) (In : ArcRel) (inp : ArcCols) (f b : ChRows) : Prop where
  okF : f.Ok
  okB : b.Ok
  sizeF : f.head.length ≤ invalidId
  sizeB : b.head.length ≤ invalidId
  light : ∀ x y w m, f.Row x y w m ∨ b.Row x y w m → w < u32
  rows : ∃ ord A0, Rows n A0 ord f.Row b.Row ∧
    (∀ x y i, A0 x y = some i → ∃ a, listArcs inp.tail inp.head inp.weight a x y i.weight) ∧
    ∀ a x y w, In a x y w → x ≠ y → ∃ i, A0 x y = some i ∧ i.weight ≤ w
  inpTail : inp.tail.Pairwise (· ≤ ·)
  inp : ∃ fo, invertVector inp.tail n = some fo ∧ InputOk n In inp fo

theorem ChRows.Ok.row_at {r : ChRows} (h : r.Ok) {i : Nat} (hi : i < r.tail.length) :
    ∃ x y w m, rd r.tail i = some x ∧ rd r.head i = some y ∧ rd r.weight i = some w ∧ rd r.mid i = some m ∧
      r.Row x y w m := by
  have := h.head
  have := h.weight
  have := h.mid
  obtain ⟨x, hx⟩ := rd_isSome (v := r.tail) (i := i) (by omega)
  obtain ⟨y, hy⟩ := rd_isSome (v := r.head) (i := i) (by omega)
  obtain ⟨w, hw⟩ := rd_isSome (v := r.weight) (i := i) (by omega)
  obtain ⟨m, hm⟩ := rd_isSome (v := r.mid) (i := i) (by omega)
  exact ⟨x, y, w, m, hx, hy, hw, hm, i, hx, hy, hw, hm⟩

theorem ChRows.Ok.forall_of_rows {r : ChRows} (h : r.Ok) {P Q S : Nat → Prop}
    (hr : ∀ x y w m, r.Row x y w m → P x ∧ Q y ∧ S m) :
    (∀ x ∈ r.tail, P x) ∧ (∀ x ∈ r.head, Q x) ∧ ∀ x ∈ r.mid, S x := by
  have l1 := h.head
  have l2 := h.mid
  refine ⟨?_, ?_, ?_⟩
  · intro x hx
    obtain ⟨i, hi⟩ := List.getElem?_of_mem hx
    obtain ⟨x', y, w, m, h1, h2, h3, h4, h5⟩ := h.row_at (rd_some_lt (v := r.tail) hi)
    have : some x = some x' := hi.symm.trans h1
    cases this
    exact (hr _ _ _ _ h5).1
  · intro x hx
    obtain ⟨i, hi⟩ := List.getElem?_of_mem hx
    obtain ⟨x', y, w, m, h1, h2, h3, h4, h5⟩ := h.row_at (i := i) (by have := (rd_some_lt (v := r.head) hi); omega)
    have : some x = some y := hi.symm.trans h2
    cases this
    exact (hr _ _ _ _ h5).2.1
  · intro x hx
    obtain ⟨i, hi⟩ := List.getElem?_of_mem hx
    obtain ⟨x', y, w, m, h1, h2, h3, h4, h5⟩ := h.row_at (i := i) (by have := (rd_some_lt (v := r.mid) hi); omega)
    have : some x = some m := hi.symm.trans h4
    cases this
    exact (hr _ _ _ _ h5).2.2

theorem SortedRows.strict {n : Nat} {fo : List Nat} {r : ChRows} (h : SortedRows n fo r) (x a b u v : Nat) (ha : OutArc fo x a)
    (hb : OutArc fo x b) (hab : a < b) (hu : r.head[a]? = some u) (hv : r.head[b]? = some v) : u < v := by
  rcases Nat.lt_or_eq_of_le (h.sorted x a b u v ha hb (by omega) hu hv) with e | rfl
  · exact e
  · have := h.ok.inj a b x u ((h.own a x).1 ha) hu ((h.own b x).1 hb) hv
    omega

theorem SortedRows.arc_iff {n : Nat} {fo : List Nat} {r : ChRows} (h : SortedRows n fo r) {x y w : Nat} :
    (∃ a, csrArcs fo r.head r.weight a x y w) ↔ ∃ m, r.Row x y w m := by
  constructor
  · rintro ⟨a, h1, h2, h3⟩
    obtain ⟨y', w', m, e1, e2, e3, e4, e5, _⟩ := h.row h1
    have : some y = some y' := h2.symm.trans e2
    cases this
    have : some w = some w' := h3.symm.trans e3
    cases this
    exact ⟨m, e5⟩
  · rintro ⟨m, j, h1, h2, h3, _⟩
    exact ⟨j, (h.own _ _).2 h1, h2, h3⟩

theorem UState.at {m : Nat} {Good : Nat → Bool → Nat → Nat → Prop} {s : Unpack} (h : UState m Good m s) {a : Nat}
    (ha : a < m) : ∃ o i j, UnpackAt s.first s.second s.isOriginal a o i j ∧ Good a o i j := by
  obtain ⟨B, hr, hl, h1, h2, h3⟩ := h
  exact ⟨_, _, _, ⟨hr.isSet (by omega), rd_fn (by omega), rd_fn (by omega)⟩, h3 a ha⟩

theorem finishCh_spec {n : Nat} {In : ArcRel} {inp : ArcCols} {f b : ChRows} (h : PreCh n In inp f b)
    (hn : n ≤ invalidId) {rank order : List Nat} (hp : IsPerm rank) (hl : rank.length = n) (hlo : order.length = n)
    (hinv : ∀ i x, i < n → (rd rank x = some i ↔ rd order i = some x))
    (hup : ∀ x y w m, f.Row x y w m ∨ b.Row x y w m → fn rank x < fn rank y) (junkF junkB : Nat → Word) :
    ∃ ch, finishCh n inp rank order f b junkF junkB = some ch ∧ ChOk n In ch ∧ ch.rank = rank ∧ ch.order = order ∧
      (∃ B, Unpackable ch.forward B) ∧ ∃ B, Unpackable ch.backward B := by
  obtain ⟨ord, A0, hR, hA, hdom⟩ := h.rows
  obtain ⟨fo, efo, hin⟩ := h.inp
  have hσ : ∀ x, x < n → fn rank x < n := by
    intro x hx
    obtain ⟨y, hy, hy'⟩ := hp.rd (i := x) (by omega)
    rw [fn_of_rd hy]; omega
  have hσi : ∀ x y, x < n → y < n → fn rank x = fn rank y → x = y := by
    intro x y hx hy e
    exact hp.inj (rd_fn (v := rank) (by omega)) (by rw [e]; exact rd_fn (v := rank) (by omega))
  have hord : ∀ x, x < n → rd order (fn rank x) = some x := fun x hx =>
    (hinv _ x (hσ x hx)).1 (rd_fn (by omega))
  have hfr : ∀ x y w m, f.Row x y w m → x < n ∧ y < n ∧ (m < n ∨ m = invalidId) := by
    intro x y w m hr
    refine ⟨(hR.hier.fUp x y w ⟨m, hr⟩).1, (hR.hier.fUp x y w ⟨m, hr⟩).2.1, ?_⟩
    rcases hR.real x y w m (Or.inl hr) with ⟨h1, _⟩ | ⟨h1, _⟩
    · exact Or.inr h1
    · exact Or.inl h1
  have hbr : ∀ x y w m, b.Row x y w m → x < n ∧ y < n ∧ (m < n ∨ m = invalidId) := by
    intro x y w m hr
    refine ⟨(hR.hier.bUp x y w ⟨m, hr⟩).1, (hR.hier.bUp x y w ⟨m, hr⟩).2.1, ?_⟩
    rcases hR.real y x w m (Or.inr hr) with ⟨h1, _⟩ | ⟨h1, _⟩
    · exact Or.inr h1
    · exact Or.inl h1
  obtain ⟨f1, f2, f3⟩ := h.okF.forall_of_rows hfr
  obtain ⟨b1, b2, b3⟩ := h.okB.forall_of_rows hbr
  obtain ⟨f', ef, okf, f4, f5, f6, f7, rf⟩ := renameRows_spec h.okF hp hl f1 f2 f3 (fun x y w m h => hup x y w m (Or.inl h))
  obtain ⟨b', eb, okb, b4, b5, b6, b7, rb⟩ := renameRows_spec h.okB hp hl b1 b2 b3 (fun x y w m h => hup x y w m (Or.inr h))
  obtain ⟨ffo, f'', esf, sf, lf, rf'⟩ := sortRows_spec okf f4 f5
  obtain ⟨bfo, b'', esb, sb, lb, rb'⟩ := sortRows_spec okb b4 b5
  have hF : ∀ p q w m, f''.Row p q w m ↔ ∃ x y m0, f.Row x y w m0 ∧ p = fn rank x ∧ q = fn rank y ∧ m = fnI rank m0 :=
    fun p q w m => (rf' p q w m).trans (rf p q w m)
  have hB : ∀ p q w m, b''.Row p q w m ↔ ∃ x y m0, b.Row x y w m0 ∧ p = fn rank x ∧ q = fn rank y ∧ m = fnI rank m0 :=
    fun p q w m => (rb' p q w m).trans (rb p q w m)
  have szf : f''.head.length ≤ invalidId := by have := h.sizeF; omega
  have szb : b''.head.length ≤ invalidId := by have := h.sizeB; omega
  have hreal : RealRows n inp order f''.Row b''.Row := by
    have key : ∀ x y w m0, f.Row x y w m0 ∨ b.Row y x w m0 →
        (fnI rank m0 = invalidId ∧ ∃ u v a, rd order (fn rank x) = some u ∧ rd order (fn rank y) = some v ∧
          listArcs inp.tail inp.head inp.weight a u v w) ∨
        (fnI rank m0 ≠ invalidId ∧ ∃ w1 w2 m1 m2, b''.Row (fnI rank m0) (fn rank x) w1 m1 ∧
          f''.Row (fnI rank m0) (fn rank y) w2 m2 ∧ w = w1 + w2) := by
      intro x y w m0 hr
      have hxy : x < n ∧ y < n := by
        rcases hr with hr | hr
        · exact ⟨(hfr _ _ _ _ hr).1, (hfr _ _ _ _ hr).2.1⟩
        · exact ⟨(hbr _ _ _ _ hr).2.1, (hbr _ _ _ _ hr).1⟩
      rcases hR.real x y w m0 hr with ⟨rfl, i, hi, rfl⟩ | ⟨hm0, w1, w2, m1, m2, h1, h2, rfl⟩
      · obtain ⟨a, ha⟩ := hA x y i hi
        exact Or.inl ⟨by simp [fnI], x, y, a, hord x hxy.1, hord y hxy.2, ha⟩
      · have hne : m0 ≠ invalidId := by omega
        have e : fnI rank m0 = fn rank m0 := if_neg hne
        rw [e]
        refine Or.inr ⟨by have := hσ m0 hm0; omega, w1, w2, fnI rank m1, fnI rank m2, ?_, ?_, rfl⟩
        · exact (hB _ _ _ _).2 ⟨m0, x, m1, h1, rfl, rfl, rfl⟩
        · exact (hF _ _ _ _).2 ⟨m0, y, m2, h2, rfl, rfl, rfl⟩
    refine ⟨?_, ?_⟩
    · rintro p q w m (hr' | hr')
      · obtain ⟨x, y, m0, hr, rfl, rfl, rfl⟩ := (hF _ _ _ _).1 hr'
        exact key x y w m0 (Or.inl hr)
      · obtain ⟨x, y, m0, hr, rfl, rfl, rfl⟩ := (hB _ _ _ _).1 hr'
        exact key y x w m0 (Or.inr hr)
    · rintro p q w m (hr | hr)
      · obtain ⟨x, y, m0, hr, _⟩ := (hF _ _ _ _).1 hr
        exact h.light _ _ _ _ (Or.inl hr)
      · obtain ⟨x, y, m0, hr, _⟩ := (hB _ _ _ _).1 hr
        exact h.light _ _ _ _ (Or.inr hr)
  obtain ⟨uf0, euf0, huf0⟩ := UState.start (Good := GoodAt In order (csrArcs ffo f''.head f''.weight)
    (csrArcs bfo b''.head b''.weight) false (csrArcs ffo f''.head f''.weight)) szf junkF
  obtain ⟨ub0, eub0, hub0⟩ := UState.start (Good := GoodAt In order (csrArcs ffo f''.head f''.weight)
    (csrArcs bfo b''.head b''.weight) true (csrArcs bfo b''.head b''.weight)) szb junkB
  obtain ⟨uf, euf, huf⟩ := unpackForward_spec hin sf sb szf szb hreal huf0
  obtain ⟨ub, eub, hub⟩ := unpackBackward_spec hin sf sb szf szb hreal hub0
  have hfR : ∀ p q w, (∃ a, csrArcs ffo f''.head f''.weight a p q w) ↔
      ∃ x y, (∃ m, f.Row x y w m) ∧ p = fn rank x ∧ q = fn rank y := by
    intro p q w
    rw [sf.arc_iff]
    constructor
    · rintro ⟨m, hr'⟩
      obtain ⟨x, y, m0, hr, rfl, rfl, _⟩ := (hF _ _ _ _).1 hr'
      exact ⟨x, y, ⟨m0, hr⟩, rfl, rfl⟩
    · rintro ⟨x, y, ⟨m0, hr⟩, rfl, rfl⟩
      exact ⟨_, (hF _ _ _ _).2 ⟨x, y, m0, hr, rfl, rfl, rfl⟩⟩
  have hbR : ∀ p q w, (∃ a, csrArcs bfo b''.head b''.weight a p q w) ↔
      ∃ x y, (∃ m, b.Row x y w m) ∧ p = fn rank x ∧ q = fn rank y := by
    intro p q w
    rw [sb.arc_iff]
    constructor
    · rintro ⟨m, hr'⟩
      obtain ⟨x, y, m0, hr, rfl, rfl, _⟩ := (hB _ _ _ _).1 hr'
      exact ⟨x, y, ⟨m0, hr⟩, rfl, rfl⟩
    · rintro ⟨x, y, ⟨m0, hr⟩, rfl, rfl⟩
      exact ⟨_, (hB _ _ _ _).2 ⟨x, y, m0, hr, rfl, rfl, rfl⟩⟩
  refine ⟨⟨rank, order, ⟨ffo, f''.head, f''.weight, uf.first, uf.second, uf.isOriginal⟩,
    ⟨bfo, b''.head, b''.weight, ub.first, ub.second, ub.isOriginal⟩⟩, ?_, ⟨hl, hlo, hp, hinv,
    ⟨sf.csr, ?_, szf, sf.strict⟩, ⟨sb.csr, ?_, szb, sb.strict⟩, ?_, ?_, ?_, ?_⟩, rfl, rfl, ?_, ?_⟩
  · unfold finishCh buildUnpackingInformation
    have hc : isSortedUsingLess inp.tail = true := (isSortedUsingLess_iff _).2 h.inpTail
    simp only [ef, eb, esf, esb, hc, check_true, euf0, eub0, efo, euf, eub, Option.bind_eq_bind, Option.bind_some]
  · have := sf.ok.head; have := sf.ok.weight; simp only; omega
  · have := sb.ok.head; have := sb.ok.weight; simp only; omega
  · refine (Hier.rename (σ := fn rank) (hR.hier.reorder ?_ ?_ hσi) hσ hfR hbR).bounded _
    · rintro x y w ⟨m, hr⟩; exact hup x y w m (Or.inl hr)
    · rintro x y w ⟨m, hr⟩; exact hup x y w m (Or.inr hr)
  · intro a x y w ha
    obtain ⟨_, _, _, _, _, _, _, _, hal⟩ := sf.row ha.1
    obtain ⟨o, i, j, h1, h2⟩ := huf.at hal
    exact ⟨o, i, j, h1, h2 x y w ha⟩
  · intro a x y w ha
    obtain ⟨_, _, _, _, _, _, _, _, hal⟩ := sb.row ha.1
    obtain ⟨o, i, j, h1, h2⟩ := hub.at hal
    exact ⟨o, i, j, h1, h2 x y w ha⟩
  · intro a x y w ha hxy _
    obtain ⟨i, hi, hw⟩ := hdom a x y w ha hxy
    obtain ⟨w', m, hr, hw'⟩ := hR.dom x y i hi
    have hxn : x < n ∧ y < n := by
      rcases hr with hr | hr
      · exact ⟨(hfr _ _ _ _ hr).1, (hfr _ _ _ _ hr).2.1⟩
      · exact ⟨(hbr _ _ _ _ hr).2.1, (hbr _ _ _ _ hr).1⟩
    refine ⟨fn rank x, fn rank y, w', rd_fn (v := rank) (by omega), rd_fn (v := rank) (by omega), by omega,
      RWalk.single ⟨?_, Nat.zero_le _, Nat.zero_le _⟩⟩
    rcases hr with hr | hr
    · exact Or.inl ((hfR _ _ _).2 ⟨x, y, ⟨m, hr⟩, rfl, rfl⟩)
    · exact Or.inr ((hbR _ _ _).2 ⟨y, x, ⟨m, hr⟩, rfl, rfl⟩)
  · obtain ⟨B, h1, h2, h3, h4, _⟩ := huf
    exact ⟨B, h1, h2, h3, h4⟩
  · obtain ⟨B, h1, h2, h3, h4, _⟩ := hub
    exact ⟨B, h1, h2, h3, h4⟩

end RK
