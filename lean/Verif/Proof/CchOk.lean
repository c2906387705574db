import Verif.Proof.CchBack
/-! Helper lemmas: the constructor of customizable contraction hierarchies. -/
namespace RK
open Spec BitVector

/-- The ranks of the elements of `v`. -/
def Ranked (rank v rv : List Nat) : Prop := rv.length = v.length ∧ ∀ i x, rd v i = some x → rd rv i = rd rank x

theorem hasArc_ranked {rank tail head rt rh : List Nat} (h1 : Ranked rank tail rt) (h2 : Ranked rank head rh)
    (x y : Nat) : HasArc rt rh x y ↔ RankArc rank tail head x y := by
  constructor
  · rintro ⟨i, e1, e2⟩
    obtain ⟨t, et⟩ := rd_isSome (v := tail) (i := i) (by have := rd_some_lt e1; have := h1.1; omega)
    obtain ⟨h, eh⟩ := rd_isSome (v := head) (i := i) (by have := rd_some_lt e2; have := h2.1; omega)
    exact ⟨i, t, h, et, eh, by rw [← rd, ← h1.2 i t et]; exact e1, by rw [← rd, ← h2.2 i h eh]; exact e2⟩
  · rintro ⟨i, t, h, et, eh, e1, e2⟩
    exact ⟨i, by rw [h1.2 i t et]; exact e1, by rw [h2.2 i h eh]; exact e2⟩

/-- The symmetric closure of a list of arcs. -/
def Sym (rt rh : List Nat) (x y : Nat) : Prop := HasArc rt rh x y ∨ HasArc rt rh y x

/-- A chordal supergraph pair. -/
def Fill (rt rh : List Nat) (x y : Nat) : Prop := x < y ∧ InnerPath (Sym rt rh) (fun z => z < x) x y

/-- A pair that can have a finite weight. -/
def DFill (rt rh : List Nat) (x y : Nat) : Prop :=
  x < y ∧ (InnerPath (HasArc rt rh) (fun z => z < x) x y ∨ InnerPath (HasArc rt rh) (fun z => z < x) y x)

theorem innerPath_sub {E E' : Nat → Nat → Prop} (h : ∀ x y, E x y → E' x y) {I : Nat → Prop} {x y : Nat}
    (hp : InnerPath E I x y) : InnerPath E' I x y := by
  induction hp with
  | edge he => exact .edge (h _ _ he)
  | step he hz _ ih => exact .step (h _ _ he) hz ih

theorem innerPath_congr {E E' : Nat → Nat → Prop} (h : ∀ x y, E x y ↔ E' x y) {I : Nat → Prop} {x y : Nat} :
    InnerPath E I x y ↔ InnerPath E' I x y :=
  ⟨innerPath_sub fun x y => (h x y).1, innerPath_sub fun x y => (h x y).2⟩

theorem DFill.fill {rt rh : List Nat} {x y : Nat} (h : DFill rt rh x y) : Fill rt rh x y := by
  refine ⟨h.1, ?_⟩
  rcases h.2 with h | h
  · exact innerPath_sub (fun _ _ h => Or.inl h) h
  · exact innerPath_symm (fun _ _ h => Or.symm h) (innerPath_sub (fun _ _ h => Or.inl h) h)

/-- Everything the users of a customizable contraction hierarchy rely on. `rt`, `rh` are the ranks of the tails and
heads of the input arcs. -/
structure CchOk (n : Nat) (rt rh : List Nat) (c : Cch) (U : List Bool) : Prop where
  nodes : c.rank.length = n
  graph : c.GraphOk n
  small : c.upTail.length ≤ invalidId
  upRep : c.inputUp.Rep U
  map : MapOk c.upTail c.upHead rt rh c.inputToCch U
  back : BackOk c U
  tail_lt : ∀ x ∈ rt, x < n
  head_lt : ∀ x ∈ rh, x < n
  keep : ∀ x y, DFill rt rh x y → HasArc c.upTail c.upHead x y
  sound : ∀ x y, HasArc c.upTail c.upHead x y → Fill rt rh x y
  parentLen : c.parent.length = n
  parent : ∀ x, x < n → ∃ p, rd c.parent x = some p ∧
    ((p = invalidId ∧ ∀ y, ¬ Fill rt rh x y) ∨ (Fill rt rh x p ∧ ∀ y, Fill rt rh x y → p ≤ y))

theorem build_spec {order tail head : List Nat} (hp : IsPerm order) (hl : tail.length = head.length)
    (ht : ∀ x ∈ tail, x < order.length) (hh : ∀ x ∈ head, x < order.length) (hsz : 2 * tail.length < 2 ^ 32)
    (hn : order.length ≠ 0) {callable filter : Bool} (hcb : (filter || callable) = true) (junk : Nat → Nat → Word) :
    ∃ rank rt rh T H, AreInverse order rank ∧ IsPerm rank ∧ Ranked rank tail rt ∧ Ranked rank head rh ∧
      SortedArcs T H ∧ (∀ x y, HasArc T H x y ↔ Fill rt rh x y) ∧
      (invalidId < T.length → Cch.build order tail head callable filter junk = none) ∧
      (T.length ≤ invalidId → ∃ c U, Cch.build order tail head callable filter junk = some c ∧ c.order = order ∧
        c.rank = rank ∧ CchOk order.length rt rh c U ∧
        (filter = false → c.upTail = T ∧ c.upHead = H) ∧
        (filter = true → ∀ x y, HasArc c.upTail c.upHead x y ↔ DFill rt rh x y)) := by
  obtain ⟨rank, er, lr, pr, hr⟩ := invertPermutation_spec hp
  have hinv : AreInverse order rank := by
    refine ⟨lr.symm, ?_⟩
    intro i j
    constructor
    · intro h; exact (hr i j (rd_some_lt h)).2 h
    · intro h
      have h' : rd rank j = some i := h
      have := pr.lt i (List.mem_of_getElem? h)
      exact (hr i j (by omega)).1 h'
  obtain ⟨rt, ert, lrt, hrt⟩ := applyPermutationToElementsOf_spec (v := tail) pr (by rw [lr]; exact ht)
  obtain ⟨rh, erh, lrh, hrh⟩ := applyPermutationToElementsOf_spec (v := head) pr (by rw [lr]; exact hh)
  have bound : ∀ {v rv : List Nat}, (∀ x ∈ v, x < order.length) → rv.length = v.length →
      (∀ i x, rd v i = some x → rd rv i = rd rank x) → ∀ x ∈ rv, x < order.length := by
    intro v rv hv hl' h x hx
    obtain ⟨i, hi⟩ := mem_iff_rd.1 hx
    obtain ⟨t, et⟩ := rd_isSome (v := v) (i := i) (by have := rd_some_lt hi; omega)
    have h1 := (h i t et).symm.trans hi
    rw [← lr]
    exact pr.lt x (List.mem_of_getElem? h1)
  have brt := bound ht lrt hrt
  have brh := bound hh lrh hrh
  obtain ⟨ids, st, sh, es1, es2, so⟩ := sortFwd_spec (n := order.length) (t := rt) (h := rh) (by omega) brt brh
  obtain ⟨yt, yh, ey, ly, by1, by2, hy⟩ := symmetrize_spec (n := order.length) (tail := st) (head := sh)
    (by rw [so.lenT, so.lenH]) (so.lt_tail brt) (so.lt_head brh) (by rw [so.lenT, lrt]; exact hsz) (junk 0)
  have hE : ∀ x y, Sym rt rh x y → Sym rt rh y x := fun x y h => Or.symm h
  have hEI : ∀ x y, x < y → (Sym rt rh x y ↔ HasArc yt yh x y) := by
    intro x y hxy
    rw [hy, so.hasArc, so.hasArc]
    constructor
    · intro h; exact ⟨by omega, h⟩
    · intro h; exact h.2
  obtain ⟨fo, H, T, hup, hfill, eb⟩ := buildUp_spec ly by1 by2 hE hEI
  have hfill' : ∀ x y, HasArc T H x y ↔ Fill rt rh x y := fun x y => hfill.iff x y
  have head0 : Cch.build order tail head callable filter junk = (buildUp order.length yt yh).bind fun s =>
      ((mapInput order.length s.2.2 s.2.1 st sh ids).bind fun m => (elimTree order.length s.1 s.2.1).bind fun parent =>
      (check (decide (order.length ≠ 0))).bind fun _ => (check (filter || callable)).bind fun _ =>
      (maybeFilter filter order.length ⟨s.1, s.2.1, s.2.2, m.1⟩ m.2).bind fun g =>
      (buildDown order.length g.head g.tail).bind fun dn => mapBack order rank parent g m.2 dn junk) := by
    unfold Cch.build
    simp only [er, ert, erh, es1, es2, ey, Option.bind_eq_bind, Option.bind_some]
  refine ⟨rank, rt, rh, T, H, hinv, pr, ⟨lrt, hrt⟩, ⟨lrh, hrh⟩, hup.sorted, hfill', ?_, ?_⟩
  · intro hbig
    rw [head0, eb, if_neg (by omega)]
    rfl
  · intro hsm
    have hbase : ∀ x y, HasArc rt rh x y ∨ HasArc rt rh y x → x < y → HasArc T H x y :=
      fun x y h hxy => hfill.base x y h hxy
    obtain ⟨m, u, U, em, lm, ru, lU, hm⟩ := mapInput_spec (n := order.length) hup.sorted so brt brh (by
      have : u64 = 18446744073709551616 := rfl
      rw [lrt]; omega) hbase
    have mo : MapOk T H rt rh m U := ⟨lm, by omega, lU, hm⟩
    obtain ⟨parent, ep, lp, hpar⟩ := elimTree_spec hup
    have hcl : ∀ x a b, HasArc T H x a → HasArc T H x b → a < b → HasArc T H a b :=
      fun x a b h1 h2 h3 => hfill.closed' h1 h2 h3
    -- the optional filter
    obtain ⟨g, eg, hup', hsm', mo', hkeep, hsound, hnf, hf⟩ : ∃ g, maybeFilter filter order.length ⟨fo, H, T, m⟩ u = some g ∧
        UpOk order.length g.firstOut g.head g.tail ∧ g.tail.length ≤ invalidId ∧
        MapOk g.tail g.head rt rh g.inputToCch U ∧ (∀ x y, DFill rt rh x y → HasArc g.tail g.head x y) ∧
        (∀ x y, HasArc g.tail g.head x y → Fill rt rh x y) ∧ (filter = false → g.tail = T ∧ g.head = H) ∧
        (filter = true → ∀ x y, HasArc g.tail g.head x y ↔ DFill rt rh x y) := by
      cases filter with
      | false =>
        exact ⟨⟨fo, H, T, m⟩, rfl, hup, hsm, mo, fun x y h => (hfill' x y).2 h.fill, fun x y h => (hfill' x y).1 h,
          fun _ => ⟨rfl, rfl⟩, (fun h => by cases h)⟩
      | true =>
        obtain ⟨g', e, g1, g2, g3, g4⟩ := filterUp_spec (g := ⟨fo, H, T, m⟩) hup hsm ru mo hcl
        refine ⟨g', by simpa [maybeFilter] using e, g1, g2, g3, fun x y h => (g4 x y).2 h,
          fun x y h => DFill.fill ((g4 x y).1 h), (fun h => by cases h), fun _ => g4⟩
    obtain ⟨dfo, dh, dtu, ed, hd⟩ := buildDown_spec hup'
    have hlen' := hup'.sorted.1
    obtain ⟨c, ec, c1, c2, c3, c4, c5, c6, c7, c8, c9, c10, c11, hb⟩ := mapBack_spec (order := order) (rank := rank)
      (parent := parent) (dn := (dfo, dh, dtu)) (junk := junk) (by omega) (by
        have h1 := mo'.len
        have : invalidId = 4294967295 := rfl
        omega) ru mo'
    refine ⟨c, U, ?_, c1, c2, ?_, ?_, ?_⟩
    · rw [head0, eb, if_pos hsm]
      simp only [Option.bind_some, em, ep, eg, ed, ec, hcb, hn, ne_eq, not_false_eq_true, decide_true, check_true]
    · refine ⟨by rw [c2, lr], ⟨by rw [c4, c5, c6]; exact hup', by rw [c5, c6, c7, c8, c9]; exact hd⟩, by rw [c6]; exact hsm',
        by rw [c11]; exact ru, by rw [c5, c6, c10]; exact mo', hb, brt, brh, by rw [c5, c6]; exact hkeep,
        by rw [c5, c6]; exact hsound, by rw [c3]; exact lp, ?_⟩
      intro x hx
      rw [c3]
      obtain ⟨p, p1, p2⟩ := hpar x hx
      refine ⟨p, p1, ?_⟩
      rcases p2 with ⟨p2, p3⟩ | ⟨p2, p3⟩
      · exact Or.inl ⟨p2, fun y hy => p3 y ((hfill' x y).2 hy)⟩
      · exact Or.inr ⟨(hfill' x p).1 p2, fun y hy => p3 y ((hfill' x y).2 hy)⟩
    · intro h
      rw [c5, c6]; exact hnf h
    · intro h
      rw [c5, c6]; exact hf h

theorem cchInput_spec {order tail head : List Nat} {callable filter : Bool}
    (h : CchInput order tail head callable filter) (junk : Nat → Nat → Word) :
    ∃ rank rt rh T H, AreInverse order rank ∧ IsPerm rank ∧ Ranked rank tail rt ∧ Ranked rank head rh ∧
      SortedArcs T H ∧ (∀ x y, HasArc T H x y ↔ Fill rt rh x y) ∧
      (invalidId < T.length → Cch.build order tail head callable filter junk = none) ∧
      (T.length ≤ invalidId → ∃ c U, Cch.build order tail head callable filter junk = some c ∧ c.order = order ∧
        c.rank = rank ∧ CchOk order.length rt rh c U ∧
        (filter = false → c.upTail = T ∧ c.upHead = H) ∧
        (filter = true → ∀ x y, HasArc c.upTail c.upHead x y ↔ DFill rt rh x y)) :=
  build_spec (isPerm_iff_perm.2 h.perm) h.len h.tail_lt h.head_lt (by have := h.size; omega)
    (by have := h.nonempty; rwa [Ne, List.length_eq_zero_iff])
    (by rcases h.log with h | h <;> simp [h]) junk

theorem fill_iff {rank tail head rt rh : List Nat} (h1 : Ranked rank tail rt) (h2 : Ranked rank head rh)
    (x y : Nat) : Fill rt rh x y ↔ FillPair rank tail head x y := by
  unfold Fill FillPair
  refine and_congr_right fun _ => innerPath_congr ?_
  intro a b
  exact or_congr (hasArc_ranked h1 h2 a b) (hasArc_ranked h1 h2 b a)

theorem dfill_iff {rank tail head rt rh : List Nat} (h1 : Ranked rank tail rt) (h2 : Ranked rank head rh)
    (x y : Nat) : DFill rt rh x y ↔ DirectedFillPair rank tail head x y := by
  unfold DFill DirectedFillPair
  exact and_congr_right fun _ => or_congr (innerPath_congr (hasArc_ranked h1 h2)) (innerPath_congr (hasArc_ranked h1 h2))

theorem cch_built {order tail head : List Nat} {callable filter : Bool}
    (h : CchInput order tail head callable filter) {junk : Nat → Nat → Word} {c : Cch}
    (hb : Cch.build order tail head callable filter junk = some c) :
    ∃ rt rh U T H, AreInverse order c.rank ∧ Ranked c.rank tail rt ∧ Ranked c.rank head rh ∧ SortedArcs T H ∧
      (∀ x y, HasArc T H x y ↔ Fill rt rh x y) ∧ c.order = order ∧ CchOk order.length rt rh c U ∧
      (filter = false → c.upTail = T ∧ c.upHead = H) ∧
      (filter = true → ∀ x y, HasArc c.upTail c.upHead x y ↔ DFill rt rh x y) := by
  obtain ⟨rank, rt, rh, T, H, h1, _, h3, h4, h5, h6, h7, h8⟩ := cchInput_spec h junk
  rcases Nat.lt_or_ge invalidId T.length with hbig | hsm
  · rw [h7 hbig] at hb; cases hb
  · obtain ⟨c', U, e, g1, g2, g3, g4, g5⟩ := h8 hsm
    cases (e.symm.trans hb : some c' = some c)
    subst g2
    exact ⟨rt, rh, U, T, H, h1, h3, h4, h5, h6, g1, g3, g4, g5⟩

end RK
