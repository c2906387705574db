import Verif.Proof.PerfectInv
/-! Helper lemmas: the hierarchy of the arcs kept by the perfect witness search. -/
namespace RK
open Spec BitVector

variable {A : ArcRel} {n : Nat} {fo tail head : List Nat} {f0 b0 f b : Nat → Nat}

/-- The weights at the end are distances. -/
structure PEnd (n : Nat) (fo tail head : List Nat) (A : ArcRel) (f0 b0 f b : Nat → Nat) : Prop where
  ctx : PCtx n fo tail head A f0 b0
  inv : PerInv tail head A f0 b0 (fun _ => True) f b

namespace PEnd

theorem distF (h : PEnd n fo tail head A f0 b0 f b) {a x y l : Nat} (hx : rd tail a = some x) (hy : rd head a = some y)
    (hl : WL A x y l) : f a ≤ l := (h.inv.perfect h.ctx (fun _ _ _ _ => trivial) hx hy).1 l hl

theorem distB (h : PEnd n fo tail head A f0 b0 f b) {a x y l : Nat} (hx : rd tail a = some x) (hy : rd head a = some y)
    (hl : WL A y x l) : b a ≤ l := (h.inv.perfect h.ctx (fun _ _ _ _ => trivial) hx hy).2 l hl

theorem leF (h : PEnd n fo tail head A f0 b0 f b) {a : Nat} (ha : a < tail.length) : f a ≤ f0 a ∧ f0 a ≤ infWeight :=
  ⟨(h.inv.le a ha).1, (h.ctx.le a ha).1⟩

theorem leB (h : PEnd n fo tail head A f0 b0 f b) {a : Nat} (ha : a < tail.length) : b a ≤ b0 a ∧ b0 a ≤ infWeight :=
  ⟨(h.inv.le a ha).2, (h.ctx.le a ha).2⟩

end PEnd

/-- The kept forward arcs. -/
def KF (tail head : List Nat) (f0 f : Nat → Nat) : ArcR := fun x y w =>
  ∃ a, rd tail a = some x ∧ rd head a = some y ∧ (f a = f0 a ∧ f0 a < infWeight) ∧ w = f a

theorem KF.up (u : UpOk n fo head tail) {x y w : Nat} (h : KF tail head f0 f x y w) : x < y ∧ y < n := by
  obtain ⟨a, h1, h2, _⟩ := h
  exact u.up x y ⟨a, h1, h2⟩

/-- A shortest upward walk only uses kept arcs. -/
theorem PEnd.shortF (h : PEnd n fo tail head A f0 b0 f b) {x y l : Nat} (hw : RWalk (innerF n A) x y l) :
    (∀ l', WL A x y l' → l ≤ l') → l < infWeight → RWalk (KF tail head f0 f) x y l := by
  induction hw with
  | nil x => intro _ _; exact .nil x
  | @cons x u y w l ha hw ih =>
    intro hmin hlt
    obtain ⟨a, h1, h2, h3⟩ := h.ctx.relF x u w ha
    have hle := h.leF (rd_some_lt h1)
    have hf : w ≤ f a := by
      rcases Nat.lt_or_ge (f a) infWeight with hfa | hfa
      · have := hmin _ (((h.inv.sound a x u h1 h2).1 hfa).append (rwalk_innerF_wl hw))
        omega
      · omega
    exact .cons ⟨a, h1, h2, ⟨by omega, by omega⟩, by omega⟩ (ih (fun l' hl' => by
      have := hmin _ ((innerF_wl ha).append hl'); omega) (by omega))

theorem PEnd.shortB (h : PEnd n fo tail head A f0 b0 f b) {x y l : Nat} (hw : RWalk (innerB n A) x y l) :
    (∀ l', WL A y x l' → l ≤ l') → l < infWeight → RWalk (KF tail head b0 b) x y l := by
  induction hw with
  | nil x => intro _ _; exact .nil x
  | @cons x u y w l ha hw ih =>
    intro hmin hlt
    obtain ⟨a, h1, h2, h3⟩ := h.ctx.relB x u w ha
    have hle := h.leB (rd_some_lt h1)
    have hf : w ≤ b a := by
      rcases Nat.lt_or_ge (b a) infWeight with hfa | hfa
      · have := hmin _ ((rwalk_innerB_wl hw).append ((h.inv.sound a x u h1 h2).2 hfa))
        omega
      · omega
    exact .cons ⟨a, h1, h2, ⟨by omega, by omega⟩, by omega⟩ (ih (fun l' hl' => by
      have := hmin _ (hl'.append (innerB_wl ha)); omega) (by omega))

/-- Every walk has an up-down counterpart along kept arcs. -/
theorem PEnd.updown (h : PEnd n fo tail head A f0 b0 f b) {x y l : Nat} (hw : WL A x y l) (hl : l < infWeight) :
    ∃ m l1 l2, RWalk (KF tail head f0 f) x m l1 ∧ RWalk (KF tail head b0 b) y m l2 ∧ l1 + l2 ≤ l := by
  classical
  have hex : ∃ d, WL A x y d := ⟨l, hw⟩
  have hmin : ∀ l', WL A x y l' → Nat.find hex ≤ l' := fun l' hl' => Nat.find_min' hex hl'
  have hd := hmin l hw
  obtain ⟨m, l1, l2, g1, g2, g3⟩ := wl_updown h.ctx.nodes (Nat.find_spec hex)
  have w1 := rwalk_innerF_wl g1
  have w2 := rwalk_innerB_wl g2
  exact ⟨m, l1, l2, h.shortF g1 (fun l' hl' => by have := hmin _ (hl'.append w2); omega) (by omega),
    h.shortB g2 (fun l' hl' => by have := hmin _ (w1.append hl'); omega) (by omega), by omega⟩

theorem UR.of_updown {F B : ArcR} {r : Nat} (hF : ∀ x y w, F x y w → x < y) (hB : ∀ x y w, B x y w → x < y) {x y m l1 l2 : Nat}
    (h1 : RWalk F x m l1) (h2 : RWalk B y m l2) (hx : r ≤ x) (hy : r ≤ y) :
    RWalk (UR (fun x => x) r F B) x y (l1 + l2) := by
  have u1 := Hier.up_walk (ord := fun x => x) hF h1 (r := r) hx
  have u2 := (Hier.up_walk (ord := fun x => x) hB h2 (r := r) hy).reverse
  refine RWalk.append (u1.mono ?_) (u2.mono ?_)
  · rintro p q w ⟨hw, h1, h2⟩; exact ⟨Or.inl hw, h1, h2⟩
  · rintro p q w ⟨hw, h1, h2⟩; exact ⟨Or.inr hw, h2, h1⟩

theorem PEnd.wlF (h : PEnd n fo tail head A f0 b0 f b) {x y w : Nat} (hk : KF tail head f0 f x y w) : WL A x y w := by
  obtain ⟨a, h1, h2, h3, rfl⟩ := hk
  exact (h.inv.sound a x y h1 h2).1 (by omega)

theorem PEnd.wlB (h : PEnd n fo tail head A f0 b0 f b) {x y w : Nat} (hk : KF tail head b0 b x y w) : WL A y x w := by
  obtain ⟨a, h1, h2, h3, rfl⟩ := hk
  exact (h.inv.sound a x y h1 h2).2 (by omega)

theorem PEnd.hier (h : PEnd n fo tail head A f0 b0 f b) :
    HierB n (fun x => x) (KF tail head f0 f) (KF tail head b0 b) infWeight := by
  have u := h.ctx.up
  refine ⟨fun x y w hk => ?_, fun x y w hk => ?_, fun x y _ _ h => h, ?_⟩
  · have := KF.up u hk; exact ⟨by omega, by omega, this.1⟩
  · have := KF.up u hk; exact ⟨by omega, by omega, this.1⟩
  · intro z x y w1 w2 hB hF hxy hlt
    obtain ⟨m, l1, l2, g1, g2, g3⟩ := h.updown ((h.wlB hB).append (h.wlF hF)) hlt
    have := (KF.up u hB).1
    have := (KF.up u hF).1
    exact ⟨l1 + l2, g3, UR.of_updown (fun _ _ _ h => (KF.up u h).1) (fun _ _ _ h => (KF.up u h).1) g1 g2 (by omega) (by omega)⟩

/-- A kept shortcut has a lower triangle of kept arcs. -/
theorem PEnd.lowerF (h : PEnd n fo tail head A f0 b0 f b) {T : Tri} {x y z : Nat} (hT : TriAt tail head T z x y)
    (hk : f T.top = f0 T.top ∧ f0 T.top < infWeight) (hs : f0 T.top = b0 T.bottom + f0 T.mid) :
    (b T.bottom = b0 T.bottom ∧ b0 T.bottom < infWeight) ∧ (f T.mid = f0 T.mid ∧ f0 T.mid < infWeight) ∧
      b T.bottom + f T.mid = f T.top := by
  have i1 := h.leB (rd_some_lt hT.bt)
  have i2 := h.leF (rd_some_lt hT.mt)
  have w1 := (h.inv.sound _ _ _ hT.bt hT.bh).2 (by omega)
  have w2 := (h.inv.sound _ _ _ hT.mt hT.mh).1 (by omega)
  have := h.distF hT.tt hT.th (w1.append w2)
  omega

theorem PEnd.lowerB (h : PEnd n fo tail head A f0 b0 f b) {T : Tri} {x y z : Nat} (hT : TriAt tail head T z x y)
    (hk : b T.top = b0 T.top ∧ b0 T.top < infWeight) (hs : b0 T.top = f0 T.bottom + b0 T.mid) :
    (b T.mid = b0 T.mid ∧ b0 T.mid < infWeight) ∧ (f T.bottom = f0 T.bottom ∧ f0 T.bottom < infWeight) ∧
      b T.mid + f T.bottom = b T.top := by
  have i1 := h.leF (rd_some_lt hT.bt)
  have i2 := h.leB (rd_some_lt hT.mt)
  have w1 := (h.inv.sound _ _ _ hT.bt hT.bh).1 (by omega)
  have w2 := (h.inv.sound _ _ _ hT.mt hT.mh).2 (by omega)
  have := h.distB hT.tt hT.th (w2.append w1)
  omega

/-! ### The first part of the code -/

theorem fill_chord {rt rh : List Nat} {x y z : Nat} (h1 : Fill rt rh x y) (h2 : Fill rt rh x z) (h : y < z) : Fill rt rh y z := by
  refine ⟨h, innerPath_append (z := x) ?_ h1.1 ?_⟩
  · exact innerPath_mono (fun u hu => by have := h1.1; omega) (innerPath_symm (fun _ _ h => h.symm) h1.2)
  · exact innerPath_mono (fun u hu => by have := h1.1; omega) h2.2

theorem PCtx.of_customized {rt rh w : List Nat} {c : Cch} {U : List Bool} (hok : CchOk n rt rh c U)
    (hfill : ∀ x y, HasArc c.upTail c.upHead x y ↔ Fill rt rh x y) (hwl : w.length = rt.length)
    (hc : CusInv c.upTail c.upHead (listArcs rt rh w) (fun _ => True) f0 b0) :
    PCtx n c.upFirstOut c.upTail c.upHead (listArcs rt rh w) f0 b0 := by
  have comp := hc.complete (hok.keep' hwl)
  refine ⟨hok.graph.up, ?_, hc.le, ?_, ?_, ?_, ?_⟩
  · rintro i x y w ⟨h1, h2, _⟩
    exact ⟨hok.tail_lt x (List.mem_of_getElem? h1), hok.head_lt y (List.mem_of_getElem? h2)⟩
  · intro a x y hx hy
    have := hok.graph.up.up x y ⟨a, hx, hy⟩
    exact ⟨fun hlt => ⟨by omega, this.2, this.1, (hc.sound a x y hx hy).1 hlt⟩,
      fun hlt => ⟨by omega, this.2, this.1, (hc.sound a x y hx hy).2 hlt⟩⟩
  · rintro x y v ⟨_, _, hlt, p, hp⟩
    exact (comp x x y p v (Nat.le_refl _) (by omega) (by omega) hp).1 hlt
  · rintro x y v ⟨_, _, hlt, p, hp⟩
    exact (comp x y x p v (by omega) (Nat.le_refl _) (by omega) hp).2 hlt
  · intro x y z h1 h2 h3
    exact (hfill y z).2 (fill_chord ((hfill x y).1 h1) ((hfill x z).1 h2) h3)

theorem perfectWeights_spec {rt rh w : List Nat} {c : Cch} {U : List Bool} (hok : CchOk n rt rh c U)
    (hfill : ∀ x y, HasArc c.upTail c.upHead x y ↔ Fill rt rh x y) (hwl : w.length = rt.length) (hw : WeightsOk w) {m : Metric}
    (l1 : m.forward.length = c.upTail.length) (l2 : m.backward.length = c.upTail.length) :
    ∃ m0 f0 b0 s f b, m.customize c w = some m0 ∧ MetricIs m0 c.upTail.length f0 b0 ∧
      CusInv c.upTail c.upHead (listArcs rt rh w) (fun _ => True) f0 b0 ∧
      perfectWeights c w m = some s ∧ PRep s c.upTail.length f0 b0 f b ∧
      PEnd n c.upFirstOut c.upTail c.upHead (listArcs rt rh w) f0 b0 f b := by
  obtain ⟨m0, f0, b0, e0, hm0, hc0⟩ := customize_inv hok hwl hw l1 l2
  have hctx := PCtx.of_customized hok hfill hwl hc0
  have hlen := hok.graph.up.sorted.1
  have hN : c.upTail.length + 511 < u64 := by have := hok.small; rw [invalidId_val] at this; unfold u64; omega
  obtain ⟨k1, e1, r1⟩ := rep_new hN true
  obtain ⟨kF, e2, r2⟩ := dropInf_spec hm0.isF (fun a ha => (hc0.le a ha).1) r1.1
  obtain ⟨kB, e3, r3⟩ := dropInf_spec hm0.isB (fun a ha => (hc0.le a ha).2) r1.1
  obtain ⟨s, es, f, b, g1, g2⟩ := forDown_inv (f := perfectArc c)
    (fun k s => ∃ f b, PRep s c.upTail.length f0 b0 f b ∧
      PerInv c.upTail c.upHead (listArcs rt rh w) f0 b0 (fun T => k ≤ T.bottom) f b) c.upTail.length ⟨m0, kF, kB⟩
    ⟨f0, b0, ⟨hm0, r2, r3⟩, hctx.start.mono (fun T x y z hT hd => by
      have := rd_some_lt hT.bt
      have hd : c.upTail.length ≤ T.bottom := hd
      omega)⟩
    (by
      rintro k s hk ⟨f, b, q1, q2⟩
      obtain ⟨s', f', b', e, q3, q4⟩ := perfectArc_spec hctx hk q1 q2
      exact ⟨s', e, f', b', q3, q4⟩)
  refine ⟨m0, f0, b0, s, f, b, e0, hm0, hc0, ?_, g1, hctx, g2.mono (fun _ _ _ _ _ _ => Nat.zero_le _)⟩
  unfold perfectWeights Cch.cchArcCount
  simp only [e0, Option.bind_eq_bind, Option.bind_some, ← hlen, e1, e2, e3, es]

/-- The debug checks succeed. -/
theorem perfectVerify_spec {c : Cch} {m : Metric} (asserts : Bool) (hm : MetricIs m c.upTail.length f b)
    (h : PEnd n c.upFirstOut c.upTail c.upHead A f0 b0 f b) : perfectVerify asserts c m = some () := by
  unfold perfectVerify
  cases asserts with
  | false => rfl
  | true =>
    rw [if_pos rfl]
    have hinf : infWeight = 2147483647 := rfl
    have hlen := h.ctx.up.sorted.1
    obtain ⟨u, e, _⟩ := forRange_inv (lo := 0) (hi := c.cchArcCount) (s := ()) (f := perfectVerifyArc c m) (fun _ _ => True)
      (Nat.zero_le _) trivial (by
        intro k _ _ hk _
        have hk' : k < c.upHead.length := hk
        obtain ⟨x, hx⟩ := rd_isSome (v := c.upTail) (i := k) (by omega)
        obtain ⟨y, hy⟩ := rd_isSome (v := c.upHead) hk'
        obtain ⟨l, el, hl⟩ := upperTriangles_spec h.ctx.up hx hy
        obtain ⟨u, e, _⟩ := forEach_inv (f := perfectVerifyTri m) (fun _ _ => True) l [] () trivial (by
          intro pre T post _ hl' _ _
          have hmem : T ∈ l := by
            have : l = pre ++ T :: post := by simpa using hl'
            rw [this]; simp
          obtain ⟨_, z, hT⟩ := (hl T).1 hmem
          have i1 := rd_some_lt hT.bt
          have i2 := rd_some_lt hT.mt
          have i3 := rd_some_lt hT.tt
          obtain ⟨sB1, sB2⟩ := h.inv.sound _ _ _ hT.bt hT.bh
          obtain ⟨sM1, sM2⟩ := h.inv.sound _ _ _ hT.mt hT.mh
          obtain ⟨sT1, sT2⟩ := h.inv.sound _ _ _ hT.tt hT.th
          have L1 := h.leF i1
          have L2 := h.leF i2
          have L3 := h.leF i3
          have L4 := h.leB i1
          have L5 := h.leB i2
          have L6 := h.leB i3
          have tri : ∀ {u v p q : Nat}, (p < infWeight → q < infWeight → u ≤ p + q) → u ≤ infWeight → p ≤ infWeight →
              q ≤ infWeight → u ≤ add32 p q := by
            intro u v p q h1 h2 h3 h4
            have : add32 p q = p + q := by unfold add32 u32; omega
            rw [this]
            rcases Nat.lt_or_ge p infWeight with hp | hp
            · rcases Nat.lt_or_ge q infWeight with hq | hq
              · exact h1 hp hq
              · omega
            · omega
          have c1 := tri (v := 0) (fun p q => h.distF hT.tt hT.th ((sB2 p).append (sM1 q))) (by omega) (by omega) (by omega)
          have c2 := tri (v := 0) (fun p q => h.distB hT.tt hT.th (by rw [Nat.add_comm]; exact (sM2 q).append (sB1 p))) (by omega) (by omega) (by omega)
          have c3 := tri (v := 0) (fun p q => h.distF hT.bt hT.bh ((sM1 p).append (sT2 q))) (by omega) (by omega) (by omega)
          have c4 := tri (v := 0) (fun p q => h.distB hT.bt hT.bh (by rw [Nat.add_comm]; exact (sT1 q).append (sM2 p))) (by omega) (by omega) (by omega)
          have c5 := tri (v := 0) (fun p q => h.distF hT.mt hT.mh ((sB1 p).append (sT1 q))) (by omega) (by omega) (by omega)
          have c6 : b T.mid ≤ add32 (b T.mid) (b T.top) := by unfold add32 u32; omega
          refine ⟨(), ?_, trivial⟩
          unfold perfectVerifyTri
          simp only [hm.fwd _ i1, hm.fwd _ i2, hm.fwd _ i3, hm.bwd _ i1, hm.bwd _ i2, hm.bwd _ i3, Option.bind_eq_bind, Option.bind_some,
            decide_eq_true c1, decide_eq_true c2, decide_eq_true c3, decide_eq_true c4, decide_eq_true c5, decide_eq_true c6, check_true])
        exact ⟨(), by unfold perfectVerifyArc; simp [el, e], trivial⟩)
    exact e

end RK
