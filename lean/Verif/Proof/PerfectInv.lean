import Verif.Proof.CchQuery
import Verif.Model.CchPerfect
import Mathlib.Tactic.Tauto
/-! Helper lemmas: the weights during the perfect witness search. -/
namespace RK
open Spec BitVector

/-- There is a walk of length `l`. -/
def WL (A : ArcRel) (x y l : Nat) : Prop := ∃ p, Walk A x p y l

variable {A : ArcRel} {n : Nat}

theorem WL.append {x y z l l' : Nat} (h : WL A x y l) (h' : WL A y z l') : WL A x z (l + l') := by
  obtain ⟨p, hp⟩ := h
  obtain ⟨q, hq⟩ := h'
  exact ⟨p ++ q, walk_append hp hq⟩

theorem WL.refl (x : Nat) : WL A x x 0 := ⟨[], .nil x⟩

theorem innerF_wl {x y l : Nat} (h : innerF n A x y l) : WL A x y l := by
  obtain ⟨_, _, _, p, hp⟩ := h
  exact ⟨p, innerWalk_walk hp⟩

theorem innerB_wl {x y l : Nat} (h : innerB n A x y l) : WL A y x l := by
  obtain ⟨_, _, _, p, hp⟩ := h
  exact ⟨p, innerWalk_walk hp⟩

theorem rwalk_innerF_wl {x y l : Nat} (h : RWalk (innerF n A) x y l) : WL A x y l := by
  induction h with
  | nil x => exact WL.refl x
  | cons ha _ ih => exact (innerF_wl ha).append ih

theorem rwalk_innerB_wl {x y l : Nat} (h : RWalk (innerB n A) x y l) : WL A y x l := by
  induction h with
  | nil x => exact WL.refl x
  | cons ha _ ih => rw [Nat.add_comm]; exact ih.append (innerB_wl ha)

theorem rwalk_up {R : ArcR} (hR : ∀ x y w, R x y w → x < y) {x y l : Nat} (h : RWalk R x y l) : x ≤ y := by
  induction h with
  | nil x => exact Nat.le_refl _
  | cons ha _ ih => have := hR _ _ _ ha; omega

/-- Every walk has an up-down counterpart that is not longer. -/
theorem wl_updown (hA : ∀ i x y w, A i x y w → x < n ∧ y < n) {x y l : Nat} (h : WL A x y l) :
    ∃ m l1 l2, RWalk (innerF n A) x m l1 ∧ RWalk (innerB n A) y m l2 ∧ l1 + l2 ≤ l := by
  obtain ⟨p, hw⟩ := h
  have key : ∃ l', l' ≤ l ∧ RWalk (UR (fun x => x) 0 (innerF n A) (innerB n A)) x y l' := by
    induction hw with
    | nil s => exact ⟨0, Nat.le_refl _, .nil _⟩
    | @cons a s m t w l p ha _ ih =>
      obtain ⟨h1, h2⟩ := hA _ _ _ _ ha
      obtain ⟨l', hl, hw'⟩ := ih
      rcases Nat.lt_trichotomy s m with hlt | heq | hlt
      · exact ⟨w + l', by omega, .cons ⟨Or.inl ⟨h1, h2, hlt, _, .edge ha⟩, Nat.zero_le _, Nat.zero_le _⟩ hw'⟩
      · rw [heq]; exact ⟨l', by omega, hw'⟩
      · exact ⟨w + l', by omega, .cons ⟨Or.inr ⟨h2, h1, hlt, _, .edge ha⟩, Nat.zero_le _, Nat.zero_le _⟩ hw'⟩
  obtain ⟨l', hl, hw'⟩ := key
  obtain ⟨m, l1, l2, g1, g2, g3⟩ := (inner_hier _ _).updown hw'
  exact ⟨m, l1, l2, g1, g2, by omega⟩

/-- What the perfect witness search relies on: an unfiltered hierarchy whose weights `f0`, `b0` are customized. -/
structure PCtx (n : Nat) (fo tail head : List Nat) (A : ArcRel) (f0 b0 : Nat → Nat) : Prop where
  up : UpOk n fo head tail
  nodes : ∀ i x y w, A i x y w → x < n ∧ y < n
  le : ∀ a, a < tail.length → f0 a ≤ infWeight ∧ b0 a ≤ infWeight
  sound : ∀ a x y, rd tail a = some x → rd head a = some y →
    (f0 a < infWeight → innerF n A x y (f0 a)) ∧ (b0 a < infWeight → innerB n A x y (b0 a))
  relF : ∀ x y v, innerF n A x y v → ∃ a, rd tail a = some x ∧ rd head a = some y ∧ f0 a ≤ v
  relB : ∀ x y v, innerB n A x y v → ∃ a, rd tail a = some x ∧ rd head a = some y ∧ b0 a ≤ v
  chord : ∀ x y z, HasArc tail head x y → HasArc tail head x z → y < z → HasArc tail head y z

/-- The weights while the triangles `D` have been treated. -/
structure PerInv (tail head : List Nat) (A : ArcRel) (f0 b0 : Nat → Nat) (D : Tri → Prop) (f b : Nat → Nat) : Prop where
  le : ∀ a, a < tail.length → f a ≤ f0 a ∧ b a ≤ b0 a
  sound : ∀ a x y, rd tail a = some x → rd head a = some y →
    (f a < infWeight → WL A x y (f a)) ∧ (b a < infWeight → WL A y x (b a))
  done : ∀ T x y z, TriAt tail head T x y z → D T →
    (∀ l, WL A z y l → f T.bottom ≤ f0 T.mid + l ∧ b T.mid ≤ b0 T.bottom + l) ∧
    (∀ l, WL A y z l → f T.mid ≤ f0 T.bottom + l ∧ b T.bottom ≤ b0 T.mid + l)

variable {fo tail head : List Nat} {f0 b0 : Nat → Nat} {D : Tri → Prop} {f b : Nat → Nat}

theorem PCtx.start (c : PCtx n fo tail head A f0 b0) : PerInv tail head A f0 b0 (fun _ => False) f0 b0 :=
  ⟨fun a _ => ⟨Nat.le_refl _, Nat.le_refl _⟩, fun a x y hx hy =>
    ⟨fun h => innerF_wl ((c.sound a x y hx hy).1 h), fun h => innerB_wl ((c.sound a x y hx hy).2 h)⟩, fun _ _ _ _ _ h => h.elim⟩

theorem PerInv.mono {D' : Tri → Prop} (h : PerInv tail head A f0 b0 D f b)
    (hD : ∀ T x y z, TriAt tail head T x y z → D' T → D T) : PerInv tail head A f0 b0 D' f b :=
  ⟨h.le, h.sound, fun T x y z hT hd => h.done T x y z hT (hD T x y z hT hd)⟩

theorem setAt_min_le (f : Nat → Nat) (i v a : Nat) : setAt f i (min (f i) v) a ≤ f a := by
  unfold setAt
  split
  · next h => subst h; exact Nat.min_le_left _ _
  · exact Nat.le_refl _

/-- Decreasing a forward weight to the length of a walk. -/
theorem PerInv.lowerF (h : PerInv tail head A f0 b0 D f b) {i v x y : Nat} (hx : rd tail i = some x) (hy : rd head i = some y)
    (hv : v < infWeight → WL A x y v) : PerInv tail head A f0 b0 D (setAt f i (min (f i) v)) b := by
  have hle := setAt_min_le f i v
  refine ⟨fun a ha => ⟨Nat.le_trans (hle a) (h.le a ha).1, (h.le a ha).2⟩, ?_, ?_⟩
  · intro a x' y' hx' hy'
    refine ⟨?_, (h.sound a x' y' hx' hy').2⟩
    by_cases ha : a = i
    · subst ha
      cases rd_congr_some hx hx'
      cases rd_congr_some hy hy'
      rw [setAt_same]
      intro hlt
      rcases Nat.le_total (f a) v with hm | hm
      · rw [Nat.min_eq_left hm] at hlt ⊢; exact (h.sound a x y hx hy).1 hlt
      · rw [Nat.min_eq_right hm] at hlt ⊢; exact hv hlt
    · rw [setAt_other _ _ ha]; exact (h.sound a x' y' hx' hy').1
  · intro T x' y' z' hT hd
    obtain ⟨h1, h2⟩ := h.done T x' y' z' hT hd
    exact ⟨fun l hl => ⟨Nat.le_trans (hle _) (h1 l hl).1, (h1 l hl).2⟩, fun l hl => ⟨Nat.le_trans (hle _) (h2 l hl).1, (h2 l hl).2⟩⟩

/-- Decreasing a backward weight to the length of a walk. -/
theorem PerInv.lowerB (h : PerInv tail head A f0 b0 D f b) {i v x y : Nat} (hx : rd tail i = some x) (hy : rd head i = some y)
    (hv : v < infWeight → WL A y x v) : PerInv tail head A f0 b0 D f (setAt b i (min (b i) v)) := by
  have hle := setAt_min_le b i v
  refine ⟨fun a ha => ⟨(h.le a ha).1, Nat.le_trans (hle a) (h.le a ha).2⟩, ?_, ?_⟩
  · intro a x' y' hx' hy'
    refine ⟨(h.sound a x' y' hx' hy').1, ?_⟩
    by_cases ha : a = i
    · subst ha
      cases rd_congr_some hx hx'
      cases rd_congr_some hy hy'
      rw [setAt_same]
      intro hlt
      rcases Nat.le_total (b a) v with hm | hm
      · rw [Nat.min_eq_left hm] at hlt ⊢; exact (h.sound a x y hx hy).2 hlt
      · rw [Nat.min_eq_right hm] at hlt ⊢; exact hv hlt
    · rw [setAt_other _ _ ha]; exact (h.sound a x' y' hx' hy').2
  · intro T x' y' z' hT hd
    obtain ⟨h1, h2⟩ := h.done T x' y' z' hT hd
    exact ⟨fun l hl => ⟨(h1 l hl).1, Nat.le_trans (hle _) (h1 l hl).2⟩, fun l hl => ⟨(h2 l hl).1, Nat.le_trans (hle _) (h2 l hl).2⟩⟩

/-- If all triangles at the bottom of node `y` are done then its arcs carry distances. -/
theorem PerInv.perfect (c : PCtx n fo tail head A f0 b0) (h : PerInv tail head A f0 b0 D f b) {y : Nat}
    (hD : ∀ T x z, TriAt tail head T y x z → D T) {a z : Nat} (hy : rd tail a = some y) (hz : rd head a = some z) :
    (∀ l, WL A y z l → f a ≤ l) ∧ (∀ l, WL A z y l → b a ≤ l) := by
  have hyz := (c.up.up y z ⟨a, hy, hz⟩).1
  have hF : ∀ x y w, innerF n A x y w → x < y := fun _ _ _ h => h.2.2.1
  have hB : ∀ x y w, innerB n A x y w → x < y := fun _ _ _ h => h.2.2.1
  constructor
  · intro l hl
    obtain ⟨m, l1, l2, g1, g2, g3⟩ := wl_updown c.nodes hl
    cases g1 with
    | nil => have := rwalk_up hB g2; omega
    | @cons _ u _ w l1' ha g1 =>
      obtain ⟨a1, k1, k2, k3⟩ := c.relF y u w ha
      have hw : WL A u z (l1' + l2) := (rwalk_innerF_wl g1).append (rwalk_innerB_wl g2)
      rcases Nat.lt_trichotomy u z with hlt | heq | hlt
      · obtain ⟨t, t1, t2⟩ := c.chord y u z ⟨a1, k1, k2⟩ ⟨a, hy, hz⟩ hlt
        have := (h.done ⟨a1, a, t⟩ y u z ⟨k1, k2, hy, hz, t1, t2⟩ (hD _ _ _ ⟨k1, k2, hy, hz, t1, t2⟩)).2 _ hw
        have := this.1
        simp only at this
        omega
      · subst heq
        cases c.up.sorted.inj hy hz k1 k2
        have := (h.le a (rd_some_lt hy)).1
        omega
      · obtain ⟨t, t1, t2⟩ := c.chord y z u ⟨a, hy, hz⟩ ⟨a1, k1, k2⟩ hlt
        have := (h.done ⟨a, a1, t⟩ y z u ⟨hy, hz, k1, k2, t1, t2⟩ (hD _ _ _ ⟨hy, hz, k1, k2, t1, t2⟩)).1 _ hw
        have := this.1
        simp only at this
        omega
  · intro l hl
    obtain ⟨m, l1, l2, g1, g2, g3⟩ := wl_updown c.nodes hl
    cases g2 with
    | nil => have := rwalk_up hF g1; omega
    | @cons _ u _ w l2' ha g2 =>
      obtain ⟨a1, k1, k2, k3⟩ := c.relB y u w ha
      have hw : WL A z u (l1 + l2') := (rwalk_innerF_wl g1).append (rwalk_innerB_wl g2)
      rcases Nat.lt_trichotomy u z with hlt | heq | hlt
      · obtain ⟨t, t1, t2⟩ := c.chord y u z ⟨a1, k1, k2⟩ ⟨a, hy, hz⟩ hlt
        have := (h.done ⟨a1, a, t⟩ y u z ⟨k1, k2, hy, hz, t1, t2⟩ (hD _ _ _ ⟨k1, k2, hy, hz, t1, t2⟩)).1 _ hw
        have := this.2
        simp only at this
        omega
      · subst heq
        cases c.up.sorted.inj hy hz k1 k2
        have := (h.le a (rd_some_lt hy)).2
        omega
      · obtain ⟨t, t1, t2⟩ := c.chord y z u ⟨a, hy, hz⟩ ⟨a1, k1, k2⟩ hlt
        have := (h.done ⟨a, a1, t⟩ y z u ⟨hy, hz, k1, k2, t1, t2⟩ (hD _ _ _ ⟨hy, hz, k1, k2, t1, t2⟩)).2 _ hw
        have := this.2
        simp only at this
        omega

/-! ### The code -/

/-- The marks: `f` has not decreased and is not infinite. -/
def Keeps (v : BitVector) (N : Nat) (f0 f : Nat → Nat) : Prop :=
  ∃ B, v.Rep B ∧ B.length = N ∧ ∀ a, a < N → at' B a = decide (f a = f0 a ∧ f0 a < infWeight)

theorem improve_spec {v : List Nat} {keep : BitVector} {N : Nat} (hv : Is v N f) (hk : Keeps keep N f0 f) {i x : Nat}
    (hi : i < N) (hle : f i ≤ f0 i) :
    ∃ v' keep', improve v keep i x = some (v', keep') ∧ Is v' N (setAt f i (min (f i) x)) ∧
      Keeps keep' N f0 (setAt f i (min (f i) x)) := by
  unfold improve
  simp only [hv.2 i hi, Option.bind_eq_bind, Option.bind_some]
  by_cases hx : f i > x
  · rw [if_pos hx]
    obtain ⟨v', e, hv'⟩ := hv.wr hi x
    obtain ⟨B, hr, hl, hb⟩ := hk
    obtain ⟨k', e', hr'⟩ := hr.reset (x := i) (by omega)
    rw [Nat.min_eq_right (by omega)]
    refine ⟨v', k', by simp [e, e'], hv', B.set i false, hr', by simpa using hl, ?_⟩
    intro a ha
    rw [at_set (by omega)]
    by_cases hai : a = i
    · subst hai
      rw [if_pos rfl, setAt_same, eq_comm, decide_eq_false_iff_not]
      omega
    · rw [if_neg hai, setAt_other _ _ hai]
      exact hb a ha
  · rw [if_neg hx, Nat.min_eq_left (by omega), setAt_self]
    exact ⟨v, keep, rfl, hv, hk⟩

/-- What the state stores. -/
structure PRep (s : PerfectState) (N : Nat) (f0 b0 f b : Nat → Nat) : Prop where
  is : MetricIs s.metric N f b
  keepF : Keeps s.keepF N f0 f
  keepB : Keeps s.keepB N b0 b

theorem perfectTri_spec (c : PCtx n fo tail head A f0 b0) {s : PerfectState} (hs : PRep s tail.length f0 b0 f b)
    (h : PerInv tail head A f0 b0 D f b) {T : Tri} {x y z : Nat} (hT : TriAt tail head T x y z)
    (hD : ∀ T' y' z', TriAt tail head T' y y' z' → D T') :
    ∃ s' f' b', perfectTri s T = some s' ∧ PRep s' tail.length f0 b0 f' b' ∧
      PerInv tail head A f0 b0 (fun T' => D T' ∨ T' = T) f' b' := by
  have hinf : infWeight = 2147483647 := rfl
  have i1 := rd_some_lt hT.bt
  have i2 := rd_some_lt hT.mt
  have i3 := rd_some_lt hT.tt
  have hxy := (c.up.up x y ⟨_, hT.bt, hT.bh⟩).1
  have hyz := (c.up.up y z ⟨_, hT.tt, hT.th⟩).1
  have ne1 : T.top ≠ T.bottom := fun e => by
    have h1 := hT.tt; rw [e] at h1; have := rd_congr_some h1 hT.bt; omega
  have ne2 : T.mid ≠ T.bottom := fun e => by
    have h1 := hT.mh; rw [e] at h1; have := rd_congr_some h1 hT.bh; omega
  have ne3 : T.top ≠ T.mid := fun e => by
    have h1 := hT.tt; rw [e] at h1; have := rd_congr_some h1 hT.mt; omega
  have hle : ∀ a, a < tail.length → f a ≤ infWeight ∧ b a ≤ infWeight := fun a ha => by
    have := h.le a ha; have := c.le a ha; omega
  obtain ⟨p1, p2⟩ := h.perfect c hD hT.tt hT.th
  have L1 := hle _ i1
  have L2 := hle _ i2
  have L3 := hle _ i3
  have M1 := h.le _ i1
  have M2 := h.le _ i2
  obtain ⟨sB1, sB2⟩ := h.sound _ _ _ hT.bt hT.bh
  obtain ⟨sM1, sM2⟩ := h.sound _ _ _ hT.mt hT.mh
  obtain ⟨sT1, sT2⟩ := h.sound _ _ _ hT.tt hT.th
  -- the first decrease
  have a1 : add32 (f T.mid) (b T.top) = f T.mid + b T.top := by unfold add32 u32; omega
  obtain ⟨F1, K1, e1, q1, r1⟩ := improve_spec (x := f T.mid + b T.top) hs.is.isF hs.keepF i1 M1.1
  have I1 := h.lowerF (v := f T.mid + b T.top) hT.bt hT.bh (fun hlt => (sM1 (by omega)).append (sT2 (by omega)))
  generalize hv1 : min (f T.bottom) (f T.mid + b T.top) = v1 at q1 r1 I1
  -- the second
  have a2 : add32 (b T.mid) (f T.top) = b T.mid + f T.top := by unfold add32 u32; omega
  obtain ⟨B1, K2, e2, q2, r2⟩ := improve_spec (x := b T.mid + f T.top) hs.is.isB hs.keepB i1 M1.2
  have I2 := I1.lowerB (v := b T.mid + f T.top) hT.bt hT.bh (fun hlt => by
    rw [Nat.add_comm]; exact (sT1 (by omega)).append (sM2 (by omega)))
  generalize hv2 : min (b T.bottom) (b T.mid + f T.top) = v2 at q2 r2 I2
  -- the third
  have hsB := I2.sound _ _ _ hT.bt hT.bh
  rw [setAt_same, setAt_same] at hsB
  have a3 : add32 v1 (f T.top) = v1 + f T.top := by unfold add32 u32; omega
  obtain ⟨F2, K3, e3, q3, r3⟩ := improve_spec (x := v1 + f T.top) q1 r1 i2 (by rw [setAt_other _ _ ne2]; exact M2.1)
  have I3 := I2.lowerF (v := v1 + f T.top) hT.mt hT.mh (fun hlt => (hsB.1 (by omega)).append (sT1 (by omega)))
  -- the fourth
  have a4 : add32 v2 (b T.top) = v2 + b T.top := by unfold add32 u32; omega
  obtain ⟨B2, K4, e4, q4, r4⟩ := improve_spec (x := v2 + b T.top) q2 r2 i2 (by rw [setAt_other _ _ ne2]; exact M2.2)
  have I4 := I3.lowerB (v := v2 + b T.top) hT.mt hT.mh (fun hlt => by
    rw [Nat.add_comm]; exact (sT2 (by omega)).append (hsB.2 (by omega)))
  rw [setAt_other _ _ ne2] at q3 r3 I3 q4 r4 I4
  rw [setAt_other _ _ ne2] at I4
  refine ⟨⟨⟨F2, B2⟩, K3, K4⟩, _, _, ?_, ⟨MetricIs.mk' q3 q4, r3, r4⟩, I4.le, I4.sound, ?_⟩
  · unfold perfectTri perfect1 perfect2 perfect3 perfect4
    simp only [hs.is.fwd _ i2, hs.is.bwd _ i3, Option.bind_eq_bind, Option.bind_some, a1, e1, hs.is.bwd _ i2, q1.2 _ i3,
      setAt_other _ _ ne1, a2, e2, q1.2 _ i1, setAt_same, a3, e3, q2.2 _ i1, q2.2 _ i3, a4, e4]
  · intro T' x' y' z' hT' hd
    rcases hd with hd | rfl
    · exact I4.done T' x' y' z' hT' hd
    · cases rd_congr_some hT.bt hT'.bt
      cases rd_congr_some hT.bh hT'.bh
      cases rd_congr_some hT.mh hT'.mh
      rw [setAt_same, setAt_same, setAt_other _ _ ne2.symm, setAt_other _ _ ne2.symm, setAt_same, setAt_same]
      refine ⟨fun l hl => ?_, fun l hl => ?_⟩
      · have := p2 l hl; omega
      · have := p1 l hl; omega

/-- The arcs of one bottom arc. -/
theorem perfectArc_spec {c : Cch} (x0 : PCtx n c.upFirstOut c.upTail c.upHead A f0 b0) {s : PerfectState} {k : Nat}
    (hk : k < c.upTail.length) (hs : PRep s c.upTail.length f0 b0 f b)
    (h : PerInv c.upTail c.upHead A f0 b0 (fun T => k + 1 ≤ T.bottom) f b) :
    ∃ s' f' b', perfectArc c s k = some s' ∧ PRep s' c.upTail.length f0 b0 f' b' ∧
      PerInv c.upTail c.upHead A f0 b0 (fun T => k ≤ T.bottom) f' b' := by
  obtain ⟨x, hx⟩ := rd_isSome (v := c.upTail) hk
  obtain ⟨y, hy⟩ := rd_isSome (v := c.upHead) (i := k) (by have := x0.up.sorted.1; omega)
  obtain ⟨l, el, hl⟩ := upperTriangles_spec x0.up hx hy
  have hxy := (x0.up.up x y ⟨k, hx, hy⟩).1
  obtain ⟨s', es, f', b', g1, g2⟩ := forEach_inv (f := perfectTri)
    (fun pre s => ∃ f b, PRep s c.upTail.length f0 b0 f b ∧
      PerInv c.upTail c.upHead A f0 b0 (fun T => k + 1 ≤ T.bottom ∨ T ∈ pre) f b) l [] s
    ⟨f, b, hs, h.mono (by simp)⟩
    (by
      rintro pre T post s hl' _ ⟨f, b, q1, q2⟩
      have hmem : T ∈ l := by
        have : l = pre ++ T :: post := by simpa using hl'
        rw [this]; simp
      obtain ⟨hb, z, hT⟩ := (hl T).1 hmem
      obtain ⟨s', f', b', e, k1, k2⟩ := perfectTri_spec x0 q1 q2 hT (by
        intro T' y' z' hT'
        left
        rcases Nat.lt_or_ge k T'.bottom with hlt | hge
        · exact hlt
        · exfalso
          rcases Nat.lt_or_eq_of_le hge with hlt | heq
          · have := x0.up.sorted.pairwise
            rcases x0.up.sorted.2 _ _ _ _ _ _ hlt hT'.bt hx hT'.bh hy with h' | ⟨h', _⟩ <;> omega
          · have h1 := hT'.bt
            rw [heq] at h1
            have := rd_congr_some h1 hx
            omega)
      refine ⟨s', e, f', b', k1, k2.mono ?_⟩
      intro T' _ _ _ _ hd
      simp only [List.mem_append, List.mem_singleton] at hd
      tauto)
  refine ⟨s', f', b', by unfold perfectArc; simp [el, es], g1, g2.mono ?_⟩
  intro T x' y' z' hT hd
  rcases Nat.lt_or_eq_of_le hd with hd | hd
  · exact Or.inl hd
  · right
    simp only [List.nil_append]
    rw [hl]
    have h1 := hT.bt
    have h2 := hT.bh
    rw [← hd] at h1 h2
    cases rd_congr_some h1 hx
    cases rd_congr_some h2 hy
    exact ⟨hd.symm, z', hT⟩

theorem forDown_inv {σ : Type} {f : σ → Nat → Option σ} (P : Nat → σ → Prop) : ∀ (k : Nat) (s : σ), P k s →
    (∀ i s, i < k → P (i + 1) s → ∃ s', f s i = some s' ∧ P i s') → ∃ s', forDown k s f = some s' ∧ P 0 s'
  | 0, s, h0, _ => ⟨s, rfl, h0⟩
  | k + 1, s, h0, hs => by
    obtain ⟨s1, e1, h1⟩ := hs k s (Nat.lt_succ_self k) h0
    obtain ⟨s2, e2, h2⟩ := forDown_inv P k s1 h1 (fun i s hi => hs i s (by omega))
    exact ⟨s2, by unfold forDown; simp [e1, e2], h2⟩

theorem dropInf_spec {v : List Nat} {N : Nat} (hv : Is v N f) (hle : ∀ a, a < N → f a ≤ infWeight) {keep : BitVector}
    (hr : keep.Rep (List.replicate N true)) : ∃ keep', forRange 0 N keep (dropInf v) = some keep' ∧ Keeps keep' N f f := by
  obtain ⟨k', e, B, h1, h2, h3⟩ := forRange_inv (lo := 0) (hi := N) (s := keep) (f := dropInf v)
    (fun k s => ∃ B, s.Rep B ∧ B.length = N ∧ ∀ a, a < N → at' B a = if a < k then decide (f a < infWeight) else true)
    (Nat.zero_le _) ⟨_, hr, by simp, fun a ha => by simp [at', ha]⟩
    (by
      rintro k s _ hk ⟨B, h1, h2, h3⟩
      unfold dropInf
      simp only [hv.2 k hk, Option.bind_eq_bind, Option.bind_some]
      have := hle k hk
      by_cases hf : f k = infWeight
      · rw [if_pos hf]
        obtain ⟨s', e, hr'⟩ := h1.reset (x := k) (by omega)
        refine ⟨s', e, _, hr', by simpa using h2, ?_⟩
        intro a ha
        rw [at_set (by omega)]
        by_cases hak : a = k
        · subst hak; simp [hf]
        · rw [if_neg hak, h3 a ha]
          by_cases h : a < k
          · rw [if_pos h, if_pos (by omega)]
          · rw [if_neg h, if_neg (by omega)]
      · rw [if_neg hf]
        refine ⟨s, rfl, B, h1, h2, ?_⟩
        intro a ha
        rw [h3 a ha]
        by_cases hak : a = k
        · subst hak
          have : f a < infWeight := by omega
          simp [this]
        · by_cases h : a < k
          · rw [if_pos h, if_pos (by omega)]
          · rw [if_neg h, if_neg (by omega)])
  refine ⟨k', e, B, h1, h2, ?_⟩
  intro a ha
  rw [h3 a ha, if_pos ha]
  simp

end RK
