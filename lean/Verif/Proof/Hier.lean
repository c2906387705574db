import Verif.Proof.WalkRel
/-!
Abstract contraction hierarchies: two relations of upward arcs and an order of the nodes. `F x y w` is an
arc from `x` up to `y`, `B x y w` is an arc from `y` down to `x`.
-/
namespace RK

abbrev ArcR := Nat → Nat → Nat → Prop

/-- Arcs of both directions between nodes of rank at least `r`. -/
def UR (ord : Nat → Nat) (r : Nat) (F B : ArcR) : ArcR :=
  fun p q w => (F p q w ∨ B q p w) ∧ r ≤ ord p ∧ r ≤ ord q

structure Hier (n : Nat) (ord : Nat → Nat) (F B : ArcR) : Prop where
  fUp : ∀ x y w, F x y w → x < n ∧ y < n ∧ ord x < ord y
  bUp : ∀ x y w, B x y w → x < n ∧ y < n ∧ ord x < ord y
  inj : ∀ x y, x < n → y < n → ord x = ord y → x = y
  tri : ∀ z x y w1 w2, B z x w1 → F z y w2 → x ≠ y →
    ∃ l, l ≤ w1 + w2 ∧ RWalk (UR ord (ord z + 1) F B) x y l

/-- A hierarchy for walks shorter than `M`. -/
structure HierB (n : Nat) (ord : Nat → Nat) (F B : ArcR) (M : Nat) : Prop where
  fUp : ∀ x y w, F x y w → x < n ∧ y < n ∧ ord x < ord y
  bUp : ∀ x y w, B x y w → x < n ∧ y < n ∧ ord x < ord y
  inj : ∀ x y, x < n → y < n → ord x = ord y → x = y
  tri : ∀ z x y w1 w2, B z x w1 → F z y w2 → x ≠ y → w1 + w2 < M →
    ∃ l, l ≤ w1 + w2 ∧ RWalk (UR ord (ord z + 1) F B) x y l

theorem Hier.bounded {n : Nat} {ord : Nat → Nat} {F B : ArcR} (h : Hier n ord F B) (M : Nat) : HierB n ord F B M :=
  ⟨h.fUp, h.bUp, h.inj, fun z x y w1 w2 h1 h2 h3 _ => h.tri z x y w1 w2 h1 h2 h3⟩

namespace Hier
variable {n : Nat} {ord : Nat → Nat} {F B : ArcR}

/-- Start of a walk over nodes of rank at least `r`: at most one arc leaves the node of rank `r`. -/
def Pre (ord : Nat → Nat) (F : ArcR) (r a c l : Nat) : Prop :=
  (a = c ∧ l = 0 ∧ r + 1 ≤ ord a) ∨ (ord a = r ∧ F a c l)

def Post (ord : Nat → Nat) (B : ArcR) (r d b l : Nat) : Prop :=
  (d = b ∧ l = 0 ∧ r + 1 ≤ ord b) ∨ (ord b = r ∧ B b d l)

/-- A walk which visits the node of rank `r` only at its ends. -/
def NF (ord : Nat → Nat) (F B : ArcR) (r a b l : Nat) : Prop :=
  (a = b ∧ l = 0) ∨ ∃ c d l1 lm l2, Pre ord F r a c l1 ∧ RWalk (UR ord (r + 1) F B) c d lm ∧
    Post ord B r d b l2 ∧ l = l1 + lm + l2

theorem UR.mono {r r' : Nat} (h : r' ≤ r) {p q w : Nat} (hu : UR ord r F B p q w) : UR ord r' F B p q w :=
  ⟨hu.1, Nat.le_trans h hu.2.1, Nat.le_trans h hu.2.2⟩

theorem exists_bound (ord : Nat → Nat) : ∀ n, ∃ N, ∀ x, x < n → ord x < N
  | 0 => ⟨0, fun x hx => absurd hx (Nat.not_lt_zero x)⟩
  | n + 1 => by
    obtain ⟨N, hN⟩ := exists_bound ord n
    refine ⟨max N (ord n + 1), ?_⟩
    intro x hx
    by_cases hxn : x = n
    · subst hxn; omega
    · have := hN x (by omega); omega

end Hier

namespace HierB
variable {n : Nat} {ord : Nat → Nat} {F B : ArcR} {M : Nat}

theorem elim (h : HierB n ord F B M) {r a b l : Nat} (hw : RWalk (UR ord r F B) a b l) (hM : l < M) :
    ∃ l', l' ≤ l ∧ Hier.NF ord F B r a b l' := by
  induction hw with
  | nil x => exact ⟨0, Nat.le_refl _, Or.inl ⟨rfl, rfl⟩⟩
  | @cons a a' b w l ha hw ih =>
    obtain ⟨l', hl', hnf⟩ := ih (by omega)
    obtain ⟨hu, hra, hra'⟩ := ha
    by_cases ha' : ord a' = r
    · -- the arc goes down to the node of rank `r`
      have hB : B a' a w ∧ ord a' < ord a := by
        rcases hu with hu | hu
        · have := (h.fUp _ _ _ hu).2.2; omega
        · exact ⟨hu, (h.bUp _ _ _ hu).2.2⟩
      have hra1 : r + 1 ≤ ord a := by omega
      rcases hnf with ⟨rfl, rfl⟩ | ⟨c, d, l1, lm, l2, hpre, hm, hpost, rfl⟩
      · exact ⟨w, by omega, Or.inr ⟨a, a, 0, 0, w, Or.inl ⟨rfl, rfl, hra1⟩, RWalk.nil a,
          Or.inr ⟨ha', hB.1⟩, by omega⟩⟩
      · rcases hpre with ⟨_, _, hc⟩ | ⟨_, hF⟩
        · omega
        · by_cases hac : a = c
          · subst hac
            exact ⟨0 + lm + l2, by omega, Or.inr ⟨a, d, 0, lm, l2, Or.inl ⟨rfl, rfl, hra1⟩, hm, hpost, rfl⟩⟩
          · obtain ⟨lt, hlt, hwt⟩ := h.tri a' a c w l1 hB.1 hF hac (by omega)
            rw [ha'] at hwt
            exact ⟨0 + (lt + lm) + l2, by omega,
              Or.inr ⟨a, d, 0, lt + lm, l2, Or.inl ⟨rfl, rfl, hra1⟩, hwt.append hm, hpost, rfl⟩⟩
    · have hra1' : r + 1 ≤ ord a' := by omega
      have hform : ∃ d lm l2, RWalk (UR ord (r + 1) F B) a' d lm ∧ Hier.Post ord B r d b l2 ∧ l' = lm + l2 := by
        rcases hnf with ⟨rfl, rfl⟩ | ⟨c, d, l1, lm, l2, hpre, hm, hpost, rfl⟩
        · exact ⟨a', 0, 0, RWalk.nil a', Or.inl ⟨rfl, rfl, hra1'⟩, rfl⟩
        · rcases hpre with ⟨rfl, rfl, _⟩ | ⟨hc, _⟩
          · exact ⟨d, lm, l2, hm, hpost, by omega⟩
          · exact absurd hc ha'
      obtain ⟨d, lm, l2, hm, hpost, rfl⟩ := hform
      by_cases har : ord a = r
      · have hF : F a a' w := by
          rcases hu with hu | hu
          · exact hu
          · have := (h.bUp _ _ _ hu).2.2; omega
        exact ⟨w + lm + l2, by omega, Or.inr ⟨a', d, w, lm, l2, Or.inr ⟨har, hF⟩, hm, hpost, rfl⟩⟩
      · have hra1 : r + 1 ≤ ord a := by omega
        exact ⟨0 + (w + lm) + l2, by omega, Or.inr ⟨a, d, 0, w + lm, l2, Or.inl ⟨rfl, rfl, hra1⟩,
          RWalk.cons ⟨hu, hra1, hra1'⟩ hm, hpost, rfl⟩⟩

/-- If reached nodes are closed under upward arcs, or are reached in a way that can be repaired by a walk
over higher nodes, then both searches meet. -/
theorem meet (h : HierB n ord F B M) {PF PB : Nat → Nat → Prop} {μ : Nat} {Done : Prop}
    (hF : ∀ a la c w, PF a la → F a c w → la + w ≤ μ →
      Done ∨ ∃ a' la' lw, PF a' la' ∧ RWalk (UR ord (ord a + 1) F B) a' c lw ∧ la' + lw ≤ la + w)
    (hB : ∀ b lb d w, PB b lb → B b d w → lb + w ≤ μ →
      Done ∨ ∃ b' lb' lw, PB b' lb' ∧ RWalk (UR ord (ord b + 1) F B) d b' lw ∧ lb' + lw ≤ lb + w)
    {a b la l lb : Nat} (ha : PF a la) (hb : PB b lb) (hw : RWalk (UR ord 0 F B) a b l)
    (hμ : la + l + lb ≤ μ) (hM : μ < M) :
    Done ∨ ∃ p l1 l2, PF p l1 ∧ PB p l2 ∧ l1 + l2 ≤ la + l + lb := by
  -- an upper bound for all ranks that occur
  obtain ⟨N, hN⟩ := Hier.exists_bound ord n
  have key : ∀ k r, r + k = N → ∀ a b la l lb, PF a la → PB b lb → RWalk (UR ord r F B) a b l →
      la + l + lb ≤ μ → Done ∨ ∃ p l1 l2, PF p l1 ∧ PB p l2 ∧ l1 + l2 ≤ la + l + lb := by
    intro k
    induction k with
    | zero =>
      intro r hr a b la l lb ha hb hw _
      cases hw with
      | nil => exact Or.inr ⟨a, la, lb, ha, hb, by omega⟩
      | cons hu _ =>
        obtain ⟨hu, h1, h2⟩ := hu
        exfalso
        rcases hu with hu | hu
        · have := hN _ (h.fUp _ _ _ hu).1; omega
        · have := hN _ (h.bUp _ _ _ hu).1; omega
    | succ k ih =>
      intro r hr a b la l lb ha hb hw hμ
      obtain ⟨l', hl', hnf⟩ := h.elim hw (by omega)
      rcases hnf with ⟨rfl, rfl⟩ | ⟨c, d, l1, lm, l2, hpre, hm, hpost, rfl⟩
      · exact Or.inr ⟨a, la, lb, ha, hb, by omega⟩
      · -- repair the front
        have h1 : Done ∨ ∃ a' la' lw, PF a' la' ∧ RWalk (UR ord (r + 1) F B) a' c lw ∧ la' + lw ≤ la + l1 := by
          rcases hpre with ⟨rfl, rfl, _⟩ | ⟨hr', hf⟩
          · exact Or.inr ⟨a, la, 0, ha, RWalk.nil a, by omega⟩
          · have := hF a la c l1 ha hf (by omega)
            rw [hr'] at this
            exact this
        have h2 : Done ∨ ∃ b' lb' lw, PB b' lb' ∧ RWalk (UR ord (r + 1) F B) d b' lw ∧ lb' + lw ≤ lb + l2 := by
          rcases hpost with ⟨rfl, rfl, _⟩ | ⟨hr', hf⟩
          · exact Or.inr ⟨d, lb, 0, hb, RWalk.nil d, by omega⟩
          · have := hB b lb d l2 hb hf (by omega)
            rw [hr'] at this
            exact this
        rcases h1 with h1 | ⟨a', la', lw, ha', hwa, hla⟩
        · exact Or.inl h1
        rcases h2 with h2 | ⟨b', lb', lw', hb', hwb, hlb⟩
        · exact Or.inl h2
        rcases ih (r + 1) (by omega) a' b' la' (lw + lm + lw') lb' ha' hb' ((hwa.append hm).append hwb)
          (by omega) with hd | ⟨p, q1, q2, hp1, hp2, hq⟩
        · exact Or.inl hd
        · exact Or.inr ⟨p, q1, q2, hp1, hp2, by omega⟩
  exact key N 0 (by omega) a b la l lb ha hb hw hμ

/-- Every walk can be replaced by an up-down walk. -/
theorem updown (h : HierB n ord F B M) {x y l : Nat} (hw : RWalk (UR ord 0 F B) x y l) (hM : l < M) :
    ∃ p l1 l2, RWalk F x p l1 ∧ RWalk B y p l2 ∧ l1 + l2 ≤ l := by
  rcases h.meet (PF := fun a la => RWalk F x a la) (PB := fun b lb => RWalk B y b lb) (μ := l) (Done := False)
    (fun a la c w ha hf _ => Or.inr ⟨c, la + w, 0, ha.snoc hf, RWalk.nil c, by omega⟩)
    (fun b lb d w hb hf _ => Or.inr ⟨d, lb + w, 0, hb.snoc hf, RWalk.nil d, by omega⟩)
    (RWalk.nil x) (RWalk.nil y) hw (by omega) hM with hd | ⟨p, l1, l2, h1, h2, h3⟩
  · exact hd.elim
  · exact ⟨p, l1, l2, h1, h2, by omega⟩

end HierB

namespace Hier
variable {n : Nat} {ord : Nat → Nat} {F B : ArcR}

theorem updown (h : Hier n ord F B) {x y l : Nat} (hw : RWalk (UR ord 0 F B) x y l) :
    ∃ p l1 l2, RWalk F x p l1 ∧ RWalk B y p l2 ∧ l1 + l2 ≤ l :=
  (h.bounded (l + 1)).updown hw (Nat.lt_succ_self l)

theorem up_walk {R : ArcR} {ord : Nat → Nat} (hR : ∀ x y w, R x y w → ord x < ord y) {r x y l : Nat}
    (hw : RWalk R x y l) (hx : r ≤ ord x) :
    RWalk (fun p q w => R p q w ∧ r ≤ ord p ∧ r ≤ ord q) x y l := by
  induction hw with
  | nil x => exact RWalk.nil x
  | cons ha _ ih =>
    have := hR _ _ _ ha
    exact RWalk.cons ⟨ha, hx, by omega⟩ (ih (by omega))

/-- The hierarchy property does not depend on the order, as long as all arcs lead upwards. -/
theorem reorder (h : Hier n ord F B) {ord' : Nat → Nat}
    (hf : ∀ x y w, F x y w → ord' x < ord' y) (hb : ∀ x y w, B x y w → ord' x < ord' y)
    (hinj : ∀ x y, x < n → y < n → ord' x = ord' y → x = y) : Hier n ord' F B := by
  refine ⟨?_, ?_, hinj, ?_⟩
  · intro x y w hw
    obtain ⟨h1, h2, _⟩ := h.fUp x y w hw
    exact ⟨h1, h2, hf x y w hw⟩
  · intro x y w hw
    obtain ⟨h1, h2, _⟩ := h.bUp x y w hw
    exact ⟨h1, h2, hb x y w hw⟩
  · intro z x y w1 w2 hB hF hxy
    obtain ⟨l, hl, hw⟩ := h.tri z x y w1 w2 hB hF hxy
    obtain ⟨p, l1, l2, h1, h2, h3⟩ := h.updown (hw.mono fun _ _ _ hu => UR.mono (Nat.zero_le _) hu)
    have hx := hb _ _ _ hB
    have hy := hf _ _ _ hF
    have u1 := up_walk (ord := ord') hf h1 (r := ord' z + 1) (by omega)
    have u2 := (up_walk (ord := ord') hb h2 (r := ord' z + 1) (by omega)).reverse
    refine ⟨l1 + l2, by omega, RWalk.append (u1.mono ?_) (u2.mono ?_)⟩
    · rintro p q w ⟨hw, h1, h2⟩; exact ⟨Or.inl hw, h1, h2⟩
    · rintro p q w ⟨hw, h1, h2⟩; exact ⟨Or.inr hw, h2, h1⟩

end Hier
end RK
