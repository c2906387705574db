import Verif.Model.ChExtra
import Verif.Proof.ChQuery
import Verif.Spec.ExtraWeight
/-! Helper lemmas: extra weights of contraction hierarchies. -/
namespace RK
open Spec
variable {W : Type}

theorem linked_ne {link : W → W → W} {l : List W} {x : W} (h : Linked link l x) : l ≠ [] := by
  induction h with
  | one w => simp
  | join _ _ h1 _ => simp [h1]

theorem linked_reverse {link : W → W → W} {l : List W} {x : W} (h : Linked (inverseLink link) l x) :
    Linked link l.reverse x := by
  induction h with
  | one w => exact .one w
  | join _ _ h1 h2 => rw [List.reverse_append]; exact .join h2 h1

theorem linked_inverse {link : W → W → W} {l : List W} {x : W} (h : Linked link l x) :
    Linked (inverseLink link) l.reverse x := by
  induction h with
  | one w => exact .one w
  | join _ _ h1 h2 => rw [List.reverse_append]; exact .join (link := inverseLink link) h2 h1

/-- For an associative link function the bracketing does not matter. -/
theorem linked_assoc {link : W → W → W} (ha : ∀ a b c, link (link a b) c = link a (link b c)) {l : List W} {x : W}
    (h : Linked link l x) : ∃ w ws, l = w :: ws ∧ x = ws.foldl link w := by
  have key : ∀ (ws : List W) (a b : W), link a (ws.foldl link b) = ws.foldl link (link a b) := by
    intro ws
    induction ws with
    | nil => intro a b; rfl
    | cons c ws ih => intro a b; rw [List.foldl_cons, List.foldl_cons, ih, ha]
  induction h with
  | one w => exact ⟨w, [], rfl, rfl⟩
  | join _ _ h1 h2 =>
    obtain ⟨w, ws, rfl, rfl⟩ := h1
    obtain ⟨v, vs, rfl, rfl⟩ := h2
    refine ⟨w, ws ++ v :: vs, rfl, ?_⟩
    rw [key, List.foldl_append, List.foldl_cons]

/-- The pairs of a piece of a path and its (non-default) weight. -/
def PLinked (weight : List W) (link : W → W → W) (p : List (Nat × Nat)) (x : W) : Prop :=
  ∃ ws : List W, (p.map Prod.fst).map (fun a => weight[a]?) = ws.map some ∧ Linked link ws x

theorem PLinked.join {weight : List W} {link : W → W → W} {p q : List (Nat × Nat)} {x y : W}
    (h1 : PLinked weight link p x) (h2 : PLinked weight link q y) : PLinked weight link (p ++ q) (link x y) := by
  obtain ⟨ws, a1, a2⟩ := h1
  obtain ⟨vs, b1, b2⟩ := h2
  exact ⟨ws ++ vs, by simp only [List.map_append, a1, b1], .join a2 b2⟩

theorem PLinked.ne {weight : List W} {link : W → W → W} {p : List (Nat × Nat)} {x : W}
    (h : PLinked weight link p x) : p ≠ [] := by
  obtain ⟨ws, a1, a2⟩ := h
  rintro rfl
  cases ws with
  | nil => exact linked_ne a2 rfl
  | cons => cases a1

/-- Unpacking on demand computes what `unpack` would visit. -/
theorem linkWeight_spec (ch : Ch) (weight : List W) (link : W → W → W) : ∀ fuel (up : Bool) (a : Nat) (l : List (Nat × Nat)),
    ch.unpack fuel up a = some l → (∀ p ∈ l, p.1 < weight.length) →
    ∃ x, ch.linkWeight weight link fuel up a = some x ∧ PLinked weight link l x
  | 0, _, _, _, h, _ => by cases h
  | fuel + 1, up, a, l, h, hl => by
    unfold Ch.unpack at h
    simp only [Option.bind_eq_bind, Option.bind_eq_some_iff] at h
    obtain ⟨o, h1, i, h2, j, h3, h4⟩ := h
    unfold Ch.linkWeight
    simp only [h1, h2, Option.bind_eq_bind, Option.bind_some]
    cases o with
    | true =>
      simp only [if_true, Option.some.injEq] at h4 ⊢
      subst h4
      obtain ⟨x, hx⟩ := rd_isSome (hl (i, j) (by simp))
      exact ⟨x, hx, [x], by simpa [rd] using hx, .one x⟩
    | false =>
      simp only [Bool.false_eq_true, if_false, Option.bind_eq_some_iff] at h4 ⊢
      obtain ⟨_, _, _, _, l1, e1, l2, e2, e⟩ := h4
      cases e
      obtain ⟨x, hx, px⟩ := linkWeight_spec ch weight link fuel false i l1 e1 (fun p hp => hl p (by simp [hp]))
      obtain ⟨y, hy, py⟩ := linkWeight_spec ch weight link fuel true j l2 e2 (fun p hp => hl p (by simp [hp]))
      exact ⟨link x y, by simp [h3, hx, hy], px.join py⟩

theorem PWalk.arc_lt {A : ArcRel} {k : Nat} (hA : ∀ a x y w, A a x y w → a < k) {x y l : Nat} {p : List (Nat × Nat)}
    (h : PWalk A x p y l) : ∀ q ∈ p, q.1 < k := by
  induction h with
  | nil => intro q hq; cases hq
  | cons ha _ ih =>
    intro q hq
    rcases List.mem_cons.1 hq with rfl | hq
    · exact hA _ _ _ _ ha
    · exact ih q hq

variable {n : Nat} {In : ArcRel} {ch : Ch}

/-- The weight function `get` is right for all arcs of the hierarchy. -/
def GoodGet (ch : Ch) (In : ArcRel) (weight : List W) (link : W → W → W) (get : Bool → Nat → Option W) : Prop :=
  (∀ a p q w, ch.forward.Arc a p q w → ∃ l x, ch.unpack (ch.rank.length + 1) true a = some l ∧
    PWalk In (fn ch.order p) l (fn ch.order q) w ∧ get true a = some x ∧ PLinked weight link l x) ∧
  (∀ a p q w, ch.backward.Arc a p q w → ∃ l x, ch.unpack (ch.rank.length + 1) false a = some l ∧
    PWalk In (fn ch.order q) l (fn ch.order p) w ∧ get false a = some x ∧ PLinked weight link l x)

theorem container_good (h : ChOk n In ch) {weight : List W} (hA : ∀ a x y w, In a x y w → a < weight.length)
    (link : W → W → W) : GoodGet ch In weight link ((ExtraWeight.container weight).get ch link) := by
  refine ⟨fun a p q w ha => ?_, fun a p q w ha => ?_⟩
  · have := h.arcF ha
    obtain ⟨l, e, hw⟩ := unpack_spec h (ch.rank.length + 1) true a p q w (by rw [h.rankLen]; omega) ha
    obtain ⟨x, ex, px⟩ := linkWeight_spec ch weight link _ _ _ _ e (PWalk.arc_lt hA hw)
    exact ⟨l, x, e, hw, ex, px⟩
  · have := h.arcB ha
    obtain ⟨l, e, hw⟩ := unpack_spec h (ch.rank.length + 1) false a p q w (by rw [h.rankLen]; omega) ha
    obtain ⟨x, ex, px⟩ := linkWeight_spec ch weight link _ _ _ _ e (PWalk.arc_lt hA hw)
    exact ⟨l, x, e, hw, ex, px⟩

/-! ### The table -/

/-- Entry `a` of a side is right. -/
def TableAt (ch : Ch) (weight : List W) (link : W → W → W) (x : ChExtra W) (up : Bool) (a : Nat) : Prop :=
  ∃ f l v, ch.unpack f up a = some l ∧ rd (if up then x.forward else x.backward) a = some v ∧ PLinked weight link l v

theorem unpack_mono (ch : Ch) : ∀ fuel (up : Bool) (a : Nat) (l : List (Nat × Nat)),
    ch.unpack fuel up a = some l → ch.unpack (fuel + 1) up a = some l
  | 0, _, _, _, h => by cases h
  | fuel + 1, up, a, l, h => by
    unfold Ch.unpack at h ⊢
    simp only [Option.bind_eq_bind, Option.bind_eq_some_iff] at h
    obtain ⟨o, h1, i, h2, j, h3, h4⟩ := h
    simp only [h1, h2, h3, Option.bind_eq_bind, Option.bind_some]
    cases o with
    | true => exact h4
    | false =>
      simp only [Bool.false_eq_true, if_false, Option.bind_eq_some_iff] at h4 ⊢
      obtain ⟨u, e1, v, e2, l1, e3, l2, e4, e⟩ := h4
      exact ⟨u, e1, v, e2, l1, unpack_mono ch fuel false i l1 e3, l2, unpack_mono ch fuel true j l2 e4, e⟩

theorem unpack_le (ch : Ch) {f g : Nat} (hfg : f ≤ g) {up : Bool} {a : Nat} {l : List (Nat × Nat)}
    (h : ch.unpack f up a = some l) : ch.unpack g up a = some l := by
  induction hfg with
  | refl => exact h
  | step _ ih => exact unpack_mono ch _ up a l ih

/-- The table when the first `iF` forward arcs and the first `iB` backward arcs have been handled. -/
structure TableInv (ch : Ch) (weight : List W) (link : W → W → W) (iF iB : Nat) (x : ChExtra W) : Prop where
  flen : x.forward.length = ch.forward.head.length
  blen : x.backward.length = ch.backward.head.length
  fwd : ∀ a, a < iF → TableAt ch weight link x true a
  bwd : ∀ a, a < iB → TableAt ch weight link x false a

theorem csr_mono {fo head : List Nat} (hg : IsCSR n fo head) : ∀ (k x b c : Nat), x + k ≤ n → fo[x]? = some b → fo[x + k]? = some c → b ≤ c
  | 0, x, b, c, _, hb, hc => by
    have : some b = some c := hb.symm.trans hc
    cases this; omega
  | k + 1, x, b, c, hk, hb, hc => by
    obtain ⟨d, hd⟩ := rd_isSome (v := fo) (i := x + 1) (by have := hg.length; omega)
    have h1 := hg.mono x b d hb hd
    have h2 := csr_mono hg k (x + 1) d c (by omega) hd (by rw [show x + 1 + k = x + (k + 1) by omega]; exact hc)
    omega

/-- Arcs of lower nodes come first. -/
theorem arc_before {s : ChSide} (hs : SideOk n s) {a z y w x b : Nat} (ha : s.Arc a z y w) (hzx : z < x) (hxn : x ≤ n)
    (hb : s.firstOut[x]? = some b) : a < b := by
  obtain ⟨b', e', _, he', _, h2⟩ := ha.1
  have := csr_mono hs.csr (x - (z + 1)) (z + 1) e' b (by omega) he' (by rw [show z + 1 + (x - (z + 1)) = x by omega]; exact hb)
  omega

/-- The value computed for one arc. -/
theorem arcWeight_spec (h : ChOk n In ch) {weight : List W} (hA : ∀ a x y w, In a x y w → a < weight.length)
    {link : W → W → W} {x : ChExtra W} {o : Bool} {i j u v w : Nat} {s : ChSide} {a : Nat}
    (hu : UnpackAt s.first s.second s.isOriginal a o i j)
    (hex : Expands In ch.order ch.forward.Arc ch.backward.Arc o i j u v w) (up : Bool) (hs : s = if up then ch.forward else ch.backward)
    (hz : ∀ z w1 w2, ch.backward.Arc i z u w1 → ch.forward.Arc j z v w2 → TableAt ch weight link x false i ∧ TableAt ch weight link x true j) :
    ∃ f l r, ch.unpack f up a = some l ∧ ChExtra.arcWeight s weight link x a = some r ∧ PLinked weight link l r := by
  subst hs
  unfold ChExtra.arcWeight
  simp only [hu.bit, hu.first, hu.second, Option.bind_eq_bind, Option.bind_some]
  rcases hex with ⟨rfl, x', y', h1, h2, h3, rfl⟩ | ⟨rfl, z, w1, w2, h1, h2, rfl⟩
  · obtain ⟨r, hr⟩ := rd_isSome (hA _ _ _ _ h3)
    refine ⟨1, [(i, j)], r, ?_, by simpa using hr, [r], by simpa [rd] using hr, .one r⟩
    unfold Ch.unpack
    simp only [hu.bit, hu.first, hu.second, Option.bind_eq_bind, Option.bind_some, if_true]
  · obtain ⟨⟨f1, l1, v1, a1, a2, a3⟩, f2, l2, v2, b1, b2, b3⟩ := hz z w1 w2 h1 h2
    simp only [Bool.false_eq_true, if_false, if_true] at a2 b2
    refine ⟨max f1 f2 + 1, l1 ++ l2, link v1 v2, ?_, by simp [a2, b2], a3.join b3⟩
    unfold Ch.unpack
    simp [hu.bit, hu.first, hu.second, sideArc_lt h.bwd h1, sideArc_lt h.fwd h2,
      unpack_le ch (Nat.le_max_left f1 f2) a1, unpack_le ch (Nat.le_max_right f1 f2) b1]

theorem side_rd_arc {s : ChSide} (hs : SideOk n s) {x a : Nat} (hx : x < n) (ha : OutArc s.firstOut x a) :
    a < s.head.length ∧ ∃ y w, s.Arc a x y w := by
  obtain ⟨b, e, hb, he, h1, h2⟩ := ha
  obtain ⟨b', e', hb', he', _, hle⟩ := hs.csr.range hx
  have : some e = some e' := he.symm.trans he'
  cases this
  have hal : a < s.head.length := by omega
  obtain ⟨y, hy⟩ := rd_isSome hal
  obtain ⟨w, hw⟩ := rd_isSome (v := s.weight) (i := a) (by rw [hs.weight]; exact hal)
  exact ⟨hal, y, w, ⟨b, e, hb, he, h1, h2⟩, hy, hw⟩

theorem reset_table (h : ChOk n In ch) {weight : List W} (hA : ∀ a x y w, In a x y w → a < weight.length)
    (link : W → W → W) (dflt : W) (x : ChExtra W) :
    ∃ x', ChExtra.reset dflt ch weight link x = some x' ∧
      TableInv ch weight link ch.forward.head.length ch.backward.head.length x' := by
  have hlen : ∀ (v : List W) k, (ChExtra.resized dflt v k).length = k := by
    intro v k; unfold ChExtra.resized; simp; omega
  obtain ⟨x', e, bF, bB, hF, hB, hI⟩ := forRange_inv (lo := 0) (hi := ch.rank.length)
    (s := (⟨ChExtra.resized dflt x.forward ch.forward.weight.length, ChExtra.resized dflt x.backward ch.backward.weight.length⟩ : ChExtra W))
    (f := ChExtra.nodeWeights ch weight link)
    (fun v x => ∃ bF bB, ch.forward.firstOut[v]? = some bF ∧ ch.backward.firstOut[v]? = some bB ∧ TableInv ch weight link bF bB x)
    (Nat.zero_le _)
    ⟨0, 0, h.fwd.csr.first, h.bwd.csr.first, by rw [hlen, h.fwd.weight], by rw [hlen, h.bwd.weight],
      fun a ha => absurd ha (Nat.not_lt_zero a), fun a ha => absurd ha (Nat.not_lt_zero a)⟩
    (by
      rintro v x _ hv ⟨bF, bB, hbF, hbB, hI⟩
      rw [h.rankLen] at hv
      obtain ⟨b1, eF, hb1, heF, hbeF, heFl⟩ := h.fwd.csr.range hv
      obtain ⟨b2, eB, hb2, heB, hbeB, heBl⟩ := h.bwd.csr.range hv
      have : some bF = some b1 := hbF.symm.trans hb1
      cases this
      have : some bB = some b2 := hbB.symm.trans hb2
      cases this
      obtain ⟨x1, ex1, hI1⟩ := forRange_inv (lo := bF) (hi := eF) (s := x) (f := ChExtra.storeForward ch weight link)
        (fun i x => TableInv ch weight link i bB x) hbeF hI
        (by
          intro a x h1 h2 hI
          obtain ⟨hal, y, w, harc⟩ := side_rd_arc h.fwd hv ⟨bF, eF, hbF, heF, h1, h2⟩
          obtain ⟨o, i, j, hu, hex⟩ := h.exF a v y w harc
          obtain ⟨f, l, r, g1, g2, g3⟩ := arcWeight_spec h hA (x := x) (link := link) hu hex true rfl (by
            intro z w1 w2 k1 k2
            have hzv := (h.arcB k1).1
            refine ⟨hI.bwd i (arc_before h.bwd k1 hzv (by omega) hbB), hI.fwd j ?_⟩
            have := arc_before h.fwd k2 hzv (by omega) hbF
            omega)
          have hax : a < x.forward.length := by rw [hI.flen]; exact hal
          refine ⟨{ x with forward := x.forward.set a r }, by simp [ChExtra.storeForward, g2, wr_lt hax], by simp [hI.flen], hI.blen, ?_, hI.bwd⟩
          intro b hb
          by_cases hba : b = a
          · subst hba
            exact ⟨f, l, r, g1, by simp [rd_set hax], g3⟩
          · obtain ⟨f', l', v', q1, q2, q3⟩ := hI.fwd b (by omega)
            refine ⟨f', l', v', q1, ?_, q3⟩
            simp only [if_true] at q2 ⊢
            rw [rd_set hax, if_neg hba]; exact q2)
      obtain ⟨x2, ex2, hI2⟩ := forRange_inv (lo := bB) (hi := eB) (s := x1) (f := ChExtra.storeBackward ch weight link)
        (fun i x => TableInv ch weight link eF i x) hbeB hI1
        (by
          intro a x h1 h2 hI
          obtain ⟨hal, y, w, harc⟩ := side_rd_arc h.bwd hv ⟨bB, eB, hbB, heB, h1, h2⟩
          obtain ⟨o, i, j, hu, hex⟩ := h.exB a v y w harc
          obtain ⟨f, l, r, g1, g2, g3⟩ := arcWeight_spec h hA (x := x) (link := link) hu hex false rfl (by
            intro z w1 w2 k1 k2
            have hzv := (h.arcF k2).1
            have p1 := arc_before h.bwd k1 hzv (by omega) hbB
            have p2 := arc_before h.fwd k2 hzv (by omega) hbF
            exact ⟨hI.bwd i (by omega), hI.fwd j (by omega)⟩)
          have hax : a < x.backward.length := by rw [hI.blen]; exact hal
          refine ⟨{ x with backward := x.backward.set a r }, by simp [ChExtra.storeBackward, g2, wr_lt hax], hI.flen, by simp [hI.blen], hI.fwd, ?_⟩
          intro b hb
          by_cases hba : b = a
          · subst hba
            exact ⟨f, l, r, g1, by simp [rd_set hax], g3⟩
          · obtain ⟨f', l', v', q1, q2, q3⟩ := hI.bwd b (by omega)
            refine ⟨f', l', v', q1, ?_, q3⟩
            simp only [Bool.false_eq_true, if_false] at q2 ⊢
            rw [rd_set hax, if_neg hba]; exact q2)
      refine ⟨x2, ?_, eF, eB, heF, heB, hI2⟩
      unfold ChExtra.nodeWeights
      simp only [show rd ch.forward.firstOut v = some bF from hbF, show rd ch.forward.firstOut (v + 1) = some eF from heF,
        show rd ch.backward.firstOut v = some bB from hbB, show rd ch.backward.firstOut (v + 1) = some eB from heB,
        ex1, ex2, Option.bind_eq_bind, Option.bind_some])
  rw [h.rankLen] at hF hB
  have : some bF = some ch.forward.head.length := hF.symm.trans h.fwd.csr.last
  cases this
  have : some bB = some ch.backward.head.length := hB.symm.trans h.bwd.csr.last
  cases this
  exact ⟨x', e, hI⟩

theorem table_good (h : ChOk n In ch) {weight : List W} {link : W → W → W} {x : ChExtra W}
    (hI : TableInv ch weight link ch.forward.head.length ch.backward.head.length x) :
    GoodGet ch In weight link ((ExtraWeight.table x).get ch link) := by
  have key : ∀ {f : Nat} {l l' : List (Nat × Nat)} {up : Bool} {a : Nat}, ch.unpack f up a = some l →
      ch.unpack (ch.rank.length + 1) up a = some l' → l = l' := by
    intro f l l' up a h1 h2
    have e1 := unpack_le ch (Nat.le_max_left f (ch.rank.length + 1)) h1
    have e2 := unpack_le ch (Nat.le_max_right f (ch.rank.length + 1)) h2
    exact Option.some.inj (e1.symm.trans e2)
  refine ⟨fun a p q w ha => ?_, fun a p q w ha => ?_⟩
  · have := h.arcF ha
    obtain ⟨l, e, hw⟩ := unpack_spec h (ch.rank.length + 1) true a p q w (by rw [h.rankLen]; omega) ha
    obtain ⟨f, l', v, g1, g2, g3⟩ := hI.fwd a (sideArc_lt h.fwd ha)
    cases key g1 e
    exact ⟨l, v, e, hw, g2, g3⟩
  · have := h.arcB ha
    obtain ⟨l, e, hw⟩ := unpack_spec h (ch.rank.length + 1) false a p q w (by rw [h.rankLen]; omega) ha
    obtain ⟨f, l', v, g1, g2, g3⟩ := hI.bwd a (sideArc_lt h.bwd ha)
    cases key g1 e
    exact ⟨l, v, e, hw, g2, g3⟩

/-! ### One-to-one queries -/

theorem unpackAll_snoc (ch : Ch) (up : Bool) (a : Nat) : ∀ (as : List Nat) {l l' : List (Nat × Nat)},
    ch.unpackAll up as = some l → ch.unpack (ch.rank.length + 1) up a = some l' → ch.unpackAll up (as ++ [a]) = some (l ++ l')
  | [], l, l', h1, h2 => by
    have : l = [] := by
      unfold Ch.unpackAll forEach at h1
      exact (Option.some.inj h1).symm
    subst this
    have := unpackAll_cons ch up a [] h2 (l' := []) rfl
    simpa using this
  | b :: bs, l, l', h1, h2 => by
    have hfrom := unpackAll_from ch up bs
    unfold Ch.unpackAll at h1
    simp only [forEach, Option.bind_eq_bind, Option.bind_eq_some_iff] at h1
    obtain ⟨l1, ⟨l2, e2, e3⟩, h1⟩ := h1
    cases e3
    rw [List.nil_append, hfrom, Option.map_eq_some_iff] at h1
    obtain ⟨l3, e3, rfl⟩ := h1
    have := unpackAll_cons ch up b (bs ++ [a]) e2 (unpackAll_snoc ch up a bs e3 h2)
    rw [List.cons_append, List.append_assoc]; exact this

/-- The weight of an arc that is met during path extraction. -/
def GoodArc (ch : Ch) (weight : List W) (link : W → W → W) (up : Bool) (get : Nat → Option W) (a : Nat) : Prop :=
  ∃ l x, ch.unpack (ch.rank.length + 1) up a = some l ∧ get a = some x ∧ PLinked weight link l x

theorem upRest_forward {weight : List W} {link : W → W → W} {get : Nat → Option W} {h : ChHalf} :
    ∀ fuel (x : Nat) (as : List Nat) (s : Nat) (ret : W) (pr : List (Nat × Nat)), ChHalf.chain h fuel x = some (as, s) →
    PLinked weight link pr ret → (∀ a ∈ as, GoodArc ch weight link true get a) →
    ∃ v p, ChHalf.upRest h get link fuel x ret = some v ∧ ch.unpackAll true as.reverse = some p ∧ PLinked weight link (p ++ pr) v
  | 0, _, _, _, _, _, h, _, _ => by cases h
  | fuel + 1, x, as, s, ret, pr, hc, hr, hg => by
    unfold ChHalf.chain at hc
    simp only [Option.bind_eq_bind, Option.bind_eq_some_iff] at hc
    obtain ⟨p, h1, h2⟩ := hc
    unfold ChHalf.upRest
    simp only [h1, Option.bind_eq_bind, Option.bind_some]
    by_cases hp : p = invalidId
    · rw [if_pos hp] at h2 ⊢
      cases h2
      exact ⟨ret, [], rfl, rfl, hr⟩
    · rw [if_neg hp] at h2 ⊢
      simp only [Option.bind_eq_some_iff] at h2
      obtain ⟨_, _, _, _, _, _, a, h3, ⟨as', s'⟩, h4, h5⟩ := h2
      cases h5
      obtain ⟨l, w, g1, g2, g3⟩ := hg a (by simp)
      obtain ⟨v, pp, e1, e2, e3⟩ := upRest_forward fuel p as' _ (link w ret) (l ++ pr) h4 (g3.join hr) (fun b hb => hg b (by simp [hb]))
      refine ⟨v, pp ++ l, by simp [h3, g2, e1], ?_, by rw [List.append_assoc]; exact e3⟩
      rw [List.reverse_cons]
      exact unpackAll_snoc ch true a _ e2 g1

theorem upRest_backward {weight : List W} {link : W → W → W} {get : Nat → Option W} {h : ChHalf} :
    ∀ fuel (x : Nat) (as : List Nat) (s : Nat) (ret : W) (pr : List (Nat × Nat)), ChHalf.chain h fuel x = some (as, s) →
    PLinked weight link pr ret → (∀ a ∈ as, GoodArc ch weight link false get a) →
    ∃ v p, ChHalf.upRest h get (inverseLink link) fuel x ret = some v ∧ ch.unpackAll false as = some p ∧ PLinked weight link (pr ++ p) v
  | 0, _, _, _, _, _, h, _, _ => by cases h
  | fuel + 1, x, as, s, ret, pr, hc, hr, hg => by
    unfold ChHalf.chain at hc
    simp only [Option.bind_eq_bind, Option.bind_eq_some_iff] at hc
    obtain ⟨p, h1, h2⟩ := hc
    unfold ChHalf.upRest
    simp only [h1, Option.bind_eq_bind, Option.bind_some]
    by_cases hp : p = invalidId
    · rw [if_pos hp] at h2 ⊢
      cases h2
      exact ⟨ret, [], rfl, rfl, by simpa using hr⟩
    · rw [if_neg hp] at h2 ⊢
      simp only [Option.bind_eq_some_iff] at h2
      obtain ⟨_, _, _, _, _, _, a, h3, ⟨as', s'⟩, h4, h5⟩ := h2
      cases h5
      obtain ⟨l, w, g1, g2, g3⟩ := hg a (by simp)
      obtain ⟨v, pp, e1, e2, e3⟩ := upRest_backward fuel p as' _ (link ret w) (pr ++ l) h4 (hr.join g3) (fun b hb => hg b (by simp [hb]))
      refine ⟨v, l ++ pp, by simp [h3, g2, inverseLink, e1], unpackAll_cons ch false a _ g1 e2, ?_⟩
      rw [← List.append_assoc]; exact e3

/-- One half of the path: nothing, or a weight. -/
theorem upDistance_forward {weight : List W} {link : W → W → W} {get : Nat → Option W} {h : ChHalf} {fuel x s : Nat}
    {as : List Nat} (hc : ChHalf.chain h (fuel + 1) x = some (as, s)) (hg : ∀ a ∈ as, GoodArc ch weight link true get a) :
    ∃ p l, rd h.predNode x = some p ∧ ch.unpackAll true as.reverse = some l ∧
      ((p = invalidId ∧ l = []) ∨ (p ≠ invalidId ∧ ∃ v, ChHalf.upDistance h get link fuel x = some v ∧ PLinked weight link l v)) := by
  unfold ChHalf.chain at hc
  simp only [Option.bind_eq_bind, Option.bind_eq_some_iff] at hc
  obtain ⟨p, h1, h2⟩ := hc
  by_cases hp : p = invalidId
  · rw [if_pos hp] at h2
    cases h2
    exact ⟨p, [], h1, rfl, Or.inl ⟨hp, rfl⟩⟩
  · rw [if_neg hp] at h2
    simp only [Option.bind_eq_some_iff] at h2
    obtain ⟨_, _, _, _, _, _, a, h3, ⟨as', s'⟩, h4, h5⟩ := h2
    cases h5
    obtain ⟨l, w, g1, g2, g3⟩ := hg a (by simp)
    obtain ⟨v, pp, e1, e2, e3⟩ := upRest_forward fuel p as' _ w l h4 g3 (fun b hb => hg b (by simp [hb]))
    refine ⟨p, pp ++ l, h1, ?_, Or.inr ⟨hp, v, ?_, e3⟩⟩
    · rw [List.reverse_cons]
      exact unpackAll_snoc ch true a _ e2 g1
    · unfold ChHalf.upDistance
      simp [h1, hp, h3, g2, e1]

theorem upDistance_backward {weight : List W} {link : W → W → W} {get : Nat → Option W} {h : ChHalf} {fuel x s : Nat}
    {as : List Nat} (hc : ChHalf.chain h (fuel + 1) x = some (as, s)) (hg : ∀ a ∈ as, GoodArc ch weight link false get a) :
    ∃ p l, rd h.predNode x = some p ∧ ch.unpackAll false as = some l ∧
      ((p = invalidId ∧ l = []) ∨
       (p ≠ invalidId ∧ ∃ v, ChHalf.upDistance h get (inverseLink link) fuel x = some v ∧ PLinked weight link l v)) := by
  unfold ChHalf.chain at hc
  simp only [Option.bind_eq_bind, Option.bind_eq_some_iff] at hc
  obtain ⟨p, h1, h2⟩ := hc
  by_cases hp : p = invalidId
  · rw [if_pos hp] at h2
    cases h2
    exact ⟨p, [], h1, rfl, Or.inl ⟨hp, rfl⟩⟩
  · rw [if_neg hp] at h2
    simp only [Option.bind_eq_some_iff] at h2
    obtain ⟨_, _, _, _, _, _, a, h3, ⟨as', s'⟩, h4, h5⟩ := h2
    cases h5
    obtain ⟨l, w, g1, g2, g3⟩ := hg a (by simp)
    obtain ⟨v, pp, e1, e2, e3⟩ := upRest_backward fuel p as' _ w l h4 g3 (fun b hb => hg b (by simp [hb]))
    refine ⟨p, l ++ pp, h1, unpackAll_cons ch false a _ g1 e2, Or.inr ⟨hp, v, ?_, e3⟩⟩
    unfold ChHalf.upDistance
    simp [h1, hp, h3, g2, e1]

theorem walk_arcs {A : ArcRel} {s t l : Nat} {p : List Nat} (h : Walk A s p t l) : ∀ a ∈ p, ∃ x y w, A a x y w := by
  induction h with
  | nil => intro a ha; cases ha
  | cons ha _ ih =>
    intro b hb
    rcases List.mem_cons.1 hb with rfl | hb
    · exact ⟨_, _, _, ha⟩
    · exact ih b hb

theorem PLinked.extraOf {weight : List W} {link : W → W → W} {p : List (Nat × Nat)} {x : W} (dflt : W)
    (h : PLinked weight link p x) : ExtraOf weight link dflt (p.map Prod.fst) x := Or.inr h

/-- The extra weight of the path that `get_arc_path` returns. -/
theorem extraDistance_spec {q : ChQuery} {s : QState} (hk : HierOk ch s.graph) (hch : q.ch = some ch)
    (hm : ModeRep s.graph.n ch (ranked ch.rank s.sources) (ranked ch.rank s.targets) q .ran)
    {weight : List W} {link : W → W → W} {e : ExtraWeight W} (hg : GoodGet ch s.graph.arcs weight link (e.get ch link)) (dflt : W) :
    ∃ arcs x, q.getArcPath = some arcs ∧ q.getExtraWeightDistance dflt e link = some x ∧ ExtraOf weight link dflt arcs x := by
  obtain ⟨hst, best, Pf, mf, Pb, mb, hme, hR, hfF, hfB⟩ := hm
  have hcs : (decide (q.state = .run)) = true := by rw [hst]; rfl
  rcases hR.meeting with ⟨h1, h2⟩ | ⟨h1, h2, h3, h4, h5⟩
  · refine ⟨[], dflt, by simp [ChQuery.getArcPath, hch, hcs, hme, h1], ?_, Or.inl ⟨rfl, rfl⟩⟩
    simp [ChQuery.getExtraWeightDistance, ChQuery.extraDistance, hch, hcs, hme, h1]
  · obtain ⟨T1, hf⟩ := hR.hf
    obtain ⟨T2, hb⟩ := hR.hb
    have hmn := (hf.small _ h2).1
    have hrl := hk.ok.rankLen
    obtain ⟨a1, s1, d1, l1, c1, c2, c3, c4, c5⟩ := chain_spec hk.q.f hk.q.n_le hf (ch.rank.length + 1) best.2 (by omega) h2
    obtain ⟨a2, s2, d2, l2, e1, e2, e3, e4, e5⟩ := chain_spec hk.q.b hk.q.n_le hb (ch.rank.length + 1) best.2 (by omega) h3
    obtain ⟨p1, w1, r1, u1, x1⟩ := upDistance_forward (ch := ch) (weight := weight) (link := link) (get := e.get ch link true) c1 (by
      intro a ha
      obtain ⟨x, y, w, hA⟩ := walk_arcs c3 a (by simpa using ha)
      obtain ⟨l, v, g1, _, g2, g3⟩ := hg.1 a x y w hA
      exact ⟨l, v, g1, g2, g3⟩)
    obtain ⟨p2, w2, r2, u2, x2⟩ := upDistance_backward (ch := ch) (weight := weight) (link := link) (get := e.get ch link false) e1 (by
      intro a ha
      obtain ⟨x, y, w, hA⟩ := walk_arcs e3 a (by simpa using ha)
      obtain ⟨l, v, g1, _, g2, g3⟩ := hg.2 a x y w hA
      exact ⟨l, v, g1, g2, g3⟩)
    have hpp : q.pathPairs ch = some (fn ch.order s1, w1 ++ w2) := by
      simp only [ChQuery.pathPairs, hme, c1, hk.ok.order_rd c5, u1, e1, u2, Option.bind_eq_bind, Option.bind_some]
    have hpath : q.getArcPath = some ((w1 ++ w2).map Prod.fst) := by
      simp only [ChQuery.getArcPath, hch, hcs, check_true, hme, h1, if_false, hpp, Option.bind_eq_bind, Option.bind_some]
    have hex : ∀ x, (if p1 = invalidId ∧ p2 = invalidId then some dflt
        else if p1 ≠ invalidId ∧ p2 ≠ invalidId then
          (q.fwd.upDistance (e.get ch link true) link ch.rank.length best.2).bind fun l =>
          (q.bwd.upDistance (e.get ch link false) (inverseLink link) ch.rank.length best.2).bind fun r => some (link l r)
        else if p1 ≠ invalidId then q.fwd.upDistance (e.get ch link true) link ch.rank.length best.2
        else q.bwd.upDistance (e.get ch link false) (inverseLink link) ch.rank.length best.2) = some x →
        q.getExtraWeightDistance dflt e link = some x := by
      intro x hx
      simp only [ChQuery.getExtraWeightDistance, ChQuery.extraDistance, hch, hcs, check_true, hme, h1, if_false, r1, r2,
        Option.bind_eq_bind, Option.bind_some]
      exact hx
    refine ⟨(w1 ++ w2).map Prod.fst, ?_⟩
    rcases x1 with ⟨y1, rfl⟩ | ⟨y1, v1, z1, t1⟩ <;> rcases x2 with ⟨y2, rfl⟩ | ⟨y2, v2, z2, t2⟩
    · exact ⟨dflt, hpath, hex _ (by simp [y1, y2]), Or.inl ⟨rfl, rfl⟩⟩
    · exact ⟨v2, hpath, hex _ (by simp [y1, y2, z2]), t2.extraOf dflt⟩
    · exact ⟨v1, hpath, hex _ (by simp [y1, y2, z1]), by simpa using t1.extraOf dflt⟩
    · exact ⟨link v1 v2, hpath, hex _ (by simp [y1, y2, z1, z2]), (t1.join t2).extraOf dflt⟩

end RK
